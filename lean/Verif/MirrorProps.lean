import Verif.Mirror

/-!
# Both directions along the axis, both directions of time (C117, C118): theorems
-/

namespace Verif

open Mirror

/-! ## C117 -/

/-- **C117** (fields). If permittivity and conductivity do not change along the axis, two runs of the field solver whose fields at the start and whose currents are mirror images of each
other stay mirror images of each other, for any number of steps and all schedules.

The full statement is for all conductivities that are mirror images of each other (violated, `C117_layers_violated`). -/
theorem C117_waves_partial (G : Geom) (hG : G.Valid) (dt : ℝ) (calls calls' : ℕ → List JCall) (hc : CallsOk G calls) (hc' : CallsOk G calls')
    (m M : Mem Loc) (hm : Initialised G m) (hM : Initialised G M) (walls : EndWalls G (fieldsOf m)) (uniform : AxiallyUniform G m) (start : MirrorImage G m M)
    (currents : ∀ n, MirrorCalls G (calls n) (calls' n)) (n : ℕ) (m' M' : Mem Loc) (h1 : FieldRun G dt calls n m m') (h2 : FieldRun G dt calls' n M M') :
    MirrorImage G m' M' := by
  have n1 := hG.nr_ge
  have n2 := hG.nz_ge
  obtain ⟨k, -, -⟩ := fRun_mirror hG dt currents start uniform walls n
  intro a i k' hI
  have hI' : Init G ⟨a, i, a.mirrorCol G k'⟩ := by
    simp only [Init] at hI ⊢
    cases a <;> simp only [Arr.initRows, Arr.initCols, Arr.mirrorCol] at hI ⊢ <;> omega
  rw [(run_rep hG hc' hM.rep h2).agree a i k' hI, (run_rep hG hc hm.rep h1).agree a i _ hI', k a i k' hI]

/-- The walls of **C117** are those of every state a run reaches. -/
theorem C117_walls (G : Geom) (hG : G.Valid) (dt : ℝ) (tbl : ℤ → ℤ → Option ℝ) (calls : ℕ → List JCall) (hc : CallsOk G calls) (m0 m : Mem Loc) (h0 : Started G tbl m0)
    (n : ℕ) (h : FieldRun G dt calls n m0 m) : EndWalls G (fieldsOf m) := by
  refine walls_congr hG (fun a i k hI => ((run_rep hG hc (h0.rep hG) h).agree a i k hI).symm) ?_
  clear h
  induction n with
  | zero => exact ⟨fun _ _ _ => ⟨rfl, rfl⟩, fun _ _ _ => ⟨rfl, rfl⟩⟩
  | succ n ih => exact walls_step hG dt _ _ _ ih

/-- In a chamber without absorbing layers at the ends, with a current in one direction in one run and the mirrored one in the other -/
example (n : ℕ) : ∃ m M m' M', Started demoGeom (fun i _ => some (if i = 2 then 1 else 0)) m ∧ Started demoGeom (fun i _ => some (if i = 2 then 1 else 0)) M ∧
    FieldRun demoGeom 1 (fun _ => [⟨.jz, 0, 0, 5⟩]) n m m' ∧ FieldRun demoGeom 1 (fun _ => [⟨.jz, 0, 2, -5⟩]) n M M' ∧ MirrorImage demoGeom m' M' := by
  obtain ⟨-, -, m, hm⟩ := C13_setup_safe demoGeom demoGeom_valid (fun i _ => some (if i = 2 then (1 : ℝ) else 0)) fun _ => none
  have c1 : CallsOk demoGeom (fun _ => [⟨.jz, 0, 0, 5⟩]) := by intro n c hc; simp at hc; subst hc; simp [JCall.Ok, demoGeom]
  have c2 : CallsOk demoGeom (fun _ => [⟨.jz, 0, 2, -5⟩]) := by intro n c hc; simp at hc; subst hc; simp [JCall.Ok, demoGeom]
  have r := hm.rep demoGeom_valid
  obtain ⟨m', h1, -⟩ := fieldRun_spec demoGeom_valid 1 c1 r n
  obtain ⟨M', h2, -⟩ := fieldRun_spec demoGeom_valid 1 c2 r n
  refine ⟨m, m, m', M', hm, hm, h1, h2, C117_waves_partial demoGeom demoGeom_valid 1 _ _ c1 c2 m m r.initialised r.initialised
    (C117_walls demoGeom demoGeom_valid 1 _ _ c1 m m hm 0 (.zero m)) ?_ ?_ ?_ n m' M' h1 h2⟩
  · intro i k hb
    rw [agree_at r.agree .eps i k hb.1 hb.2.1 hb.2.2.1 hb.2.2.2, agree_at r.agree .eps i 0 hb.1 hb.2.1 le_rfl (by simp [Arr.initCols, demoGeom]),
      agree_at r.agree .sig i k hb.1 hb.2.1 hb.2.2.1 hb.2.2.2, agree_at r.agree .sig i 0 hb.1 hb.2.1 le_rfl (by simp [Arr.initCols, demoGeom])]
    exact ⟨rfl, rfl⟩
  · intro a i k hI
    have hI' : Init demoGeom ⟨a, i, a.mirrorCol demoGeom k⟩ := by
      simp only [Init] at hI ⊢
      cases a <;> simp only [Arr.initRows, Arr.initCols, Arr.mirrorCol] at hI ⊢ <;> omega
    rw [r.agree a i k hI, r.agree a i _ hI']
    cases a <;> simp [setupFields, Arr.mirrorSign]
  · intro n a i k ha hI
    simp only [Init] at hI
    rcases ha with rfl | rfl | rfl <;> simp only [Arr.initRows, Arr.initCols, demoGeom] at hI <;> simp only [callSum_cons, callSum_nil, Arr.mirrorSign, Arr.mirrorCol, demoGeom]
    · simp
    · simp
    · have : (0 = i ∧ 2 = k) ↔ (0 = i ∧ 0 = (4 : ℤ) - 2 - k) := by omega
      by_cases c : 0 = i ∧ 2 = k
      · have c'' := this.1 c
        simp only [Nat.cast_ofNat, true_and, if_pos c, if_pos c'']
        norm_num
      · have c' := fun x => c (this.2 x)
        simp only [Nat.cast_ofNat, true_and, if_neg c, if_neg c']
        simp

/-- **C117 is violated by absorbing layers at the ends**: the axial field half a cell behind a column is damped with the conductivity of that column.  From the start on, with a conductivity that is its own
mirror image and is not the same in the first two columns on the axis, and with currents that are their own mirror image, the fields are not after one step. -/
theorem C117_layers_violated (G : Geom) (hG : G.Valid) (dt v : ℝ) (hdt : 0 < dt) (hv : v ≠ 0) (tbl : ℤ → ℤ → Option ℝ) (nonneg : ∀ i k, 0 ≤ (tbl i k).getD 0)
    (symmetric : ∀ i k, tbl i (G.nz - 1 - k) = tbl i k) (layer : (tbl 0 0).getD 0 ≠ (tbl 0 1).getD 0) (m m' : Mem Loc) (hm : Started G tbl m) (calls : List JCall)
    (hc : calls = [⟨.jz, 0, 0, v⟩, ⟨.jz, 0, G.nz - 2, -v⟩]) (step : FieldStep G dt calls m m') :
    MirrorImage G m m ∧ MirrorCalls G calls calls ∧ ¬ MirrorImage G m' m' := by
  have n1 := hG.nr_ge
  have n2 := hG.nz_ge
  have r := hm.rep hG
  have n3 : 3 ≤ G.nz := by
    by_contra h
    have : (G.nz : ℤ) = 2 := by omega
    have s := symmetric 0 1
    rw [this] at s
    exact layer (by rw [← s]; norm_num)
  have ok : ∀ c ∈ calls, c.Ok G := by
    subst hc
    intro c hc
    simp only [List.mem_cons, List.not_mem_nil, or_false] at hc
    rcases hc with rfl | rfl <;> refine ⟨by simp, ?_, ?_, ?_, ?_⟩ <;> dsimp only <;> omega
  refine ⟨?_, ?_, ?_⟩
  · intro a i k hI
    have hI' : Init G ⟨a, i, a.mirrorCol G k⟩ := by
      simp only [Init] at hI ⊢
      cases a <;> simp only [Arr.initRows, Arr.initCols, Arr.mirrorCol] at hI ⊢ <;> omega
    rw [r.agree a i k hI, r.agree a i _ hI']
    cases a <;> simp [setupFields, Arr.mirrorSign, Arr.mirrorCol, symmetric]
  · intro a i k ha hI
    subst hc
    rcases ha with rfl | rfl | rfl <;> simp only [callSum_cons, callSum_nil, Arr.mirrorSign, Arr.mirrorCol]
    · simp
    · simp
    · have e1 : (0 = i ∧ 0 = k) ↔ (0 = i ∧ (G.nz : ℤ) - 2 = G.nz - 2 - k) := by omega
      have e2 : (0 = i ∧ (G.nz : ℤ) - 2 = k) ↔ (0 = i ∧ 0 = (G.nz : ℤ) - 2 - k) := by omega
      simp only [true_and]
      rw [← if_congr e1 rfl rfl, ← if_congr e2 rfl rfl]
      split_ifs <;> simp
  · intro h
    obtain ⟨-, x, -, u, w, -⟩ := fieldStep_spec hG dt ok r
    rw [u _ step] at h
    have k := h .ez 0 0 (by simp only [Init, Arr.initRows, Arr.initCols]; omega)
    simp only [Arr.mirrorSign, Arr.mirrorCol] at k
    rw [agree_at w.agree .ez 0 0 (by rng) (by rng) (by rng) (by rng), agree_at w.agree .ez 0 (G.nz - 2 - 0) (by rng) (by rng) (by rng) (by rng)] at k
    simp only [fStep, eStep] at k
    rw [if_pos (by simp only [Box]; omega), if_pos (by simp only [Box]; omega)] at k
    have z : (G.nz : ℤ) - 2 ≠ 0 := by omega
    have hs : tbl 0 (G.nz - 2) = tbl 0 1 := by
      rw [← symmetric 0 1]
      congr 1
      ring
    subst hc
    simp only [newEz0, withJ, hStep, setupFields, kE, kH, alphaPhi, callSum_cons, callSum_nil, sub_zero, hs, z, z.symm] at k
    simp only [and_true, if_true, if_false, and_false] at k
    simp only [sub_self, zero_div, mul_zero, add_zero, ite_self, zero_mul, zero_sub, zero_add, sub_zero] at k
    have k' : v * koefH 1 ((tbl 0 0).getD 0) dt = v * koefH 1 ((tbl 0 1).getD 0) dt := by linarith
    have k2 := mul_left_cancel₀ hv k'
    unfold koefH at k2
    have e0 : (0 : ℝ) < EPSILON0 := by norm_num [EPSILON0]
    have d0 : 0 < 2 * 1 * EPSILON0 + (tbl 0 0).getD 0 * dt := by have := mul_nonneg (nonneg 0 0) hdt.le; linarith
    have d1 : 0 < 2 * 1 * EPSILON0 + (tbl 0 1).getD 0 * dt := by have := mul_nonneg (nonneg 0 1) hdt.le; linarith
    rw [div_eq_div_iff d0.ne' d1.ne'] at k2
    have k3 := mul_left_cancel₀ (by positivity : (2 * dt) ≠ 0) k2
    exact layer (mul_right_cancel₀ hdt.ne' (by linarith : (tbl 0 0).getD 0 * dt = (tbl 0 1).getD 0 * dt))

/-- A layer of one column at both ends -/
example : ∃ m m', Started demoGeom (fun _ k => some (if k = 0 ∨ k = 3 then 1 else 0)) m ∧ FieldStep demoGeom 1 [⟨.jz, 0, 0, 1⟩, ⟨.jz, 0, 2, -1⟩] m m' ∧ MirrorImage demoGeom m m ∧
    ¬ MirrorImage demoGeom m' m' := by
  obtain ⟨-, -, m, hm⟩ := C13_setup_safe demoGeom demoGeom_valid (fun _ k => some (if k = 0 ∨ k = 3 then (1 : ℝ) else 0)) fun _ => none
  have ok : ∀ c ∈ ([⟨.jz, 0, 0, 1⟩, ⟨.jz, 0, 2, -1⟩] : List JCall), c.Ok demoGeom := by
    intro c hc
    simp at hc
    rcases hc with rfl | rfl <;> simp [JCall.Ok, demoGeom]
  obtain ⟨-, m', h, -⟩ := fieldStep_spec demoGeom_valid 1 ok (hm.rep demoGeom_valid)
  have := C117_layers_violated demoGeom demoGeom_valid 1 1 one_pos one_ne_zero _ (by intro i k; by_cases h : k = 0 ∨ k = 3 <;> simp [h])
    (by
      intro i k
      have : ((demoGeom.nz : ℤ) - 1 - k = 0 ∨ (demoGeom.nz : ℤ) - 1 - k = 3) ↔ (k = 0 ∨ k = 3) := by simp only [demoGeom]; omega
      simp only [this]) (by simp) m m' hm _ (by simp [demoGeom]) h
  exact ⟨m, m', hm, h, this.1, this.2.2⟩

/-! ## C118 -/

/-- The second memory holds the first one with the magnetic field reversed, which is taken after the next magnetic update (in `mh`): the electric field and the materials of `m`, and the
magnetic field of `mh` with the other sign. -/
def Reversed (G : Geom) (m mh b : Mem Loc) : Prop :=
  (∀ a i k, a ∈ [Arr.er, .ephi, .ez, .eps, .sig] → Init G ⟨a, i, k⟩ → fieldsOf b a i k = fieldsOf m a i k) ∧
  ∀ a i k, a ∈ [Arr.hr, .hphi, .hz] → Init G ⟨a, i, k⟩ → fieldsOf b a i k = -fieldsOf mh a i k

namespace Mirror

/-- `Reversed`, for fields -/
def RevF (G : Geom) (dt : ℝ) (F B : Fields) : Prop :=
  (∀ a i k, a ∈ [Arr.er, .ephi, .ez, .eps, .sig] → Init G ⟨a, i, k⟩ → B a i k = F a i k) ∧
  ∀ a i k, a ∈ [Arr.hr, .hphi, .hz] → Init G ⟨a, i, k⟩ → B a i k = -hStep G dt F a i k

variable {G : Geom} {F B : Fields}

theorem hStep_reversed (hG : G.Valid) (dt : ℝ) (h : RevF G dt F B) : ∀ a i k, a ∈ [Arr.hr, .hphi, .hz] → Init G ⟨a, i, k⟩ → hStep G dt B a i k = -F a i k := by
  have n1 := hG.nr_ge
  have n2 := hG.nz_ge
  obtain ⟨e, m⟩ := h
  intro a i k ha hI
  have k1 := m a i k ha hI
  simp only [List.mem_cons, List.not_mem_nil, or_false] at ha
  rcases ha with rfl | rfl | rfl <;> simp only [hStep] at k1 ⊢ <;> simp only [Init, Arr.initRows, Arr.initCols] at hI
  · have q : alphaR G dt B i k = alphaR G dt F i k := by
      unfold alphaR
      rw [e .ephi i (k + 1) (by simp) (by simp only [Init, Arr.initRows, Arr.initCols]; omega), e .ephi i k (by simp) (by simp only [Init, Arr.initRows, Arr.initCols]; omega)]
    rw [if_pos (by simp only [Box]; omega)] at k1 ⊢
    rw [k1, q]
    ring
  · have q : alphaPhi G dt B i k = alphaPhi G dt F i k := by
      unfold alphaPhi
      rw [e .er i (k + 1) (by simp) (by simp only [Init, Arr.initRows, Arr.initCols]; omega), e .er i k (by simp) (by simp only [Init, Arr.initRows, Arr.initCols]; omega),
        e .ez (i + 1) k (by simp) (by simp only [Init, Arr.initRows, Arr.initCols]; omega), e .ez i k (by simp) (by simp only [Init, Arr.initRows, Arr.initCols]; omega)]
    rw [if_pos (by simp only [Box]; omega)] at k1 ⊢
    rw [k1, q]
    ring
  · have q : alphaZ G dt B i k = alphaZ G dt F i k := by
      unfold alphaZ
      rw [e .ephi (i + 1) k (by simp) (by simp only [Init, Arr.initRows, Arr.initCols]; omega), e .ephi i k (by simp) (by simp only [Init, Arr.initRows, Arr.initCols]; omega)]
    split_ifs at k1 ⊢
    · rw [k1, q]
      ring
    · exact k1

/-- One step back -/
theorem step_back (hG : G.Valid) (dt : ℝ) {c c' : List JCall}
    (hc : ∀ a i k, a ∈ [Arr.jr, .jphi, .jz] → Init G ⟨a, i, k⟩ → callSum c' a i k = -callSum c a i k)
    (heps : ∀ i k, Box 0 G.nr 0 G.nz i k → 0 < F .eps i k) (hsig : ∀ i k, Box 0 G.nr 0 G.nz i k → F .sig i k = 0)
    (h : RevF G dt (fStep G dt (callSum c .jr) (callSum c .jphi) (callSum c .jz) F) B) :
    RevF G dt F (fStep G dt (callSum c' .jr) (callSum c' .jphi) (callSum c' .jz) B) := by
  have n1 := hG.nr_ge
  have n2 := hG.nz_ge
  have hm := hStep_reversed hG dt h
  obtain ⟨e, -⟩ := h
  have one : ∀ i k, Box 0 G.nr 0 G.nz i k → kE dt (hStep G dt F) i k = 1 := by
    intro i k hb
    show koefE (F .eps i k) (F .sig i k) dt = 1
    rw [hsig i k hb, koefE_lossless (heps i k hb)]
  have mat : ∀ i k, Box 0 G.nr 0 G.nz i k → kE dt (hStep G dt B) i k = 1 ∧ kH dt (hStep G dt B) i k = kH dt (hStep G dt F) i k := by
    intro i k hb
    have e1 : B .eps i k = F .eps i k := e .eps i k (by simp) ⟨hb.1, hb.2.1, hb.2.2.1, hb.2.2.2⟩
    have e2 : B .sig i k = F .sig i k := e .sig i k (by simp) ⟨hb.1, hb.2.1, hb.2.2.1, hb.2.2.2⟩
    refine ⟨?_, ?_⟩
    · show koefE (B .eps i k) (B .sig i k) dt = 1
      rw [e1, e2, hsig i k hb, koefE_lossless (heps i k hb)]
    · show koefH (B .eps i k) (B .sig i k) dt = koefH (F .eps i k) (F .sig i k) dt
      rw [e1, e2]
  have hh : ∀ a i k, a ∈ [Arr.hr, .hphi, .hz] → Init G ⟨a, i, k⟩ → hStep G dt B a i k = -hStep G dt F a i k := by
    intro a i k ha hI
    rw [hm a i k ha hI]
    simp only [List.mem_cons, List.not_mem_nil, or_false] at ha
    rcases ha with rfl | rfl | rfl <;> rfl
  refine ⟨?_, ?_⟩
  · intro a i k ha hI
    have hb := e a i k ha hI
    simp only [List.mem_cons, List.not_mem_nil, or_false] at ha
    have hI' := hI
    rcases ha with rfl | rfl | rfl | rfl | rfl <;> simp only [Init, Arr.initRows, Arr.initCols] at hI'
    · simp only [fStep, eStep] at hb ⊢
      by_cases c1 : Box 0 (G.nr - 1) 1 (G.nz - 1) i k
      · rw [if_pos c1] at hb ⊢
        simp only [Box] at c1
        have o := one i k (by simp only [Box]; omega)
        obtain ⟨p1, p2⟩ := mat i k (by simp only [Box]; omega)
        have j := hc .jr i k (by simp) (by simp only [Init, Arr.initRows, Arr.initCols]; omega)
        have q1 := hh .hphi i k (by simp) (by simp only [Init, Arr.initRows, Arr.initCols]; omega)
        have q2 := hh .hphi i (k - 1) (by simp) (by simp only [Init, Arr.initRows, Arr.initCols]; omega)
        change _ = hStep G dt F .er i k * kE dt (hStep G dt F) i k - (callSum c .jr i k + (hStep G dt F .hphi i k - hStep G dt F .hphi i (k - 1)) / G.dz) * kH dt (hStep G dt F) i k at hb
        show hStep G dt B .er i k * kE dt (hStep G dt B) i k - (callSum c' .jr i k + (hStep G dt B .hphi i k - hStep G dt B .hphi i (k - 1)) / G.dz) * kH dt (hStep G dt B) i k = F .er i k
        rw [show hStep G dt B .er i k = B .er i k from rfl, hb, j, q1, q2, p1, p2, o, show hStep G dt F .er i k = F .er i k from rfl]
        ring
      · rw [if_neg c1] at hb ⊢
        exact hb
    · simp only [fStep, eStep] at hb ⊢
      by_cases c1 : Box 1 (G.nr - 1) 1 (G.nz - 1) i k
      · rw [if_pos c1] at hb ⊢
        simp only [Box] at c1
        have o := one i k (by simp only [Box]; omega)
        obtain ⟨p1, p2⟩ := mat i k (by simp only [Box]; omega)
        have j := hc .jphi i k (by simp) (by simp only [Init, Arr.initRows, Arr.initCols]; omega)
        have q1 := hh .hr i k (by simp) (by simp only [Init, Arr.initRows, Arr.initCols]; omega)
        have q2 := hh .hr i (k - 1) (by simp) (by simp only [Init, Arr.initRows, Arr.initCols]; omega)
        have q3 := hh .hz i k (by simp) (by simp only [Init, Arr.initRows, Arr.initCols]; omega)
        have q4 := hh .hz (i - 1) k (by simp) (by simp only [Init, Arr.initRows, Arr.initCols]; omega)
        change _ = hStep G dt F .ephi i k * kE dt (hStep G dt F) i k - (callSum c .jphi i k - (hStep G dt F .hr i k - hStep G dt F .hr i (k - 1)) / G.dz +
          (hStep G dt F .hz i k - hStep G dt F .hz (i - 1) k) / G.dr) * kH dt (hStep G dt F) i k at hb
        show hStep G dt B .ephi i k * kE dt (hStep G dt B) i k - (callSum c' .jphi i k - (hStep G dt B .hr i k - hStep G dt B .hr i (k - 1)) / G.dz +
          (hStep G dt B .hz i k - hStep G dt B .hz (i - 1) k) / G.dr) * kH dt (hStep G dt B) i k = F .ephi i k
        rw [show hStep G dt B .ephi i k = B .ephi i k from rfl, hb, j, q1, q2, q3, q4, p1, p2, o, show hStep G dt F .ephi i k = F .ephi i k from rfl]
        ring
      · rw [if_neg c1] at hb ⊢
        exact hb
    · simp only [fStep, eStep] at hb ⊢
      by_cases c0 : Box 0 1 0 (G.nz - 1) i k
      · rw [if_pos c0] at hb ⊢
        simp only [Box] at c0
        have o := one i k (by simp only [Box]; omega)
        obtain ⟨p1, p2⟩ := mat i k (by simp only [Box]; omega)
        have j := hc .jz i k (by simp) (by simp only [Init, Arr.initRows, Arr.initCols]; omega)
        have q1 := hh .hphi i k (by simp) (by simp only [Init, Arr.initRows, Arr.initCols]; omega)
        change _ = hStep G dt F .ez i k * kE dt (hStep G dt F) i k - (callSum c .jz i k - 4 / G.dr * hStep G dt F .hphi i k) * kH dt (hStep G dt F) i k at hb
        show hStep G dt B .ez i k * kE dt (hStep G dt B) i k - (callSum c' .jz i k - 4 / G.dr * hStep G dt B .hphi i k) * kH dt (hStep G dt B) i k = F .ez i k
        rw [show hStep G dt B .ez i k = B .ez i k from rfl, hb, j, q1, p1, p2, o, show hStep G dt F .ez i k = F .ez i k from rfl]
        ring
      · rw [if_neg c0] at hb ⊢
        by_cases c1 : Box 1 (G.nr - 1) 0 (G.nz - 1) i k
        · rw [if_pos c1] at hb ⊢
          simp only [Box] at c1
          have o := one i k (by simp only [Box]; omega)
          obtain ⟨p1, p2⟩ := mat i k (by simp only [Box]; omega)
          have j := hc .jz i k (by simp) (by simp only [Init, Arr.initRows, Arr.initCols]; omega)
          have q1 := hh .hphi i k (by simp) (by simp only [Init, Arr.initRows, Arr.initCols]; omega)
          have q2 := hh .hphi (i - 1) k (by simp) (by simp only [Init, Arr.initRows, Arr.initCols]; omega)
          change _ = hStep G dt F .ez i k * kE dt (hStep G dt F) i k - (callSum c .jz i k - (hStep G dt F .hphi i k - hStep G dt F .hphi (i - 1) k) / G.dr -
            (hStep G dt F .hphi i k + hStep G dt F .hphi (i - 1) k) / (2 * G.dr * (i : ℝ))) * kH dt (hStep G dt F) i k at hb
          show hStep G dt B .ez i k * kE dt (hStep G dt B) i k - (callSum c' .jz i k - (hStep G dt B .hphi i k - hStep G dt B .hphi (i - 1) k) / G.dr -
            (hStep G dt B .hphi i k + hStep G dt B .hphi (i - 1) k) / (2 * G.dr * (i : ℝ))) * kH dt (hStep G dt B) i k = F .ez i k
          rw [show hStep G dt B .ez i k = B .ez i k from rfl, hb, j, q1, q2, p1, p2, o, show hStep G dt F .ez i k = F .ez i k from rfl]
          ring
        · rw [if_neg c1] at hb ⊢
          exact hb
    · exact hb
    · exact hb
  · intro a i k ha hI
    rw [← hh a i k ha hI]
    simp only [List.mem_cons, List.not_mem_nil, or_false] at ha
    rcases ha with rfl | rfl | rfl <;> rfl

end Mirror

/-- **C118**. Without conductivity, a run of the field solver can be undone by the field solver: with the magnetic field reversed after its next update, and with the same currents in
the other direction and in reverse order, as many steps lead back to the start, whatever the schedules. -/
theorem C118_reversed (G : Geom) (hG : G.Valid) (dt : ℝ) (calls calls' : ℕ → List JCall) (hc : CallsOk G calls) (hc' : CallsOk G calls') (m mh m' mh' b b' : Mem Loc) (n : ℕ)
    (hm : Initialised G m) (hb : Initialised G b) (heps : ∀ i k, Box 0 G.nr 0 G.nz i k → 0 < fieldsOf m .eps i k) (hsig : ∀ i k, Box 0 G.nr 0 G.nz i k → fieldsOf m .sig i k = 0)
    (start : RegionRun (Alloc G) (hRegion G dt) m mh) (run : FieldRun G dt calls n m m') (turn : RegionRun (Alloc G) (hRegion G dt) m' mh')
    (reversed : Reversed G m' mh' b)
    (currents : ∀ j, j < n → ∀ a i k, a ∈ [Arr.jr, .jphi, .jz] → Init G ⟨a, i, k⟩ → callSum (calls' j) a i k = -callSum (calls (n - 1 - j)) a i k)
    (back : FieldRun G dt calls' n b b') : Reversed G m mh b' := by
  have after : ∀ {x xh : Mem Loc} {F : Fields}, Rep G F x → RegionRun (Alloc G) (hRegion G dt) x xh → Agree G (fieldsOf xh) (hStep G dt F) := by
    intro x xh F hx hr
    obtain ⟨y, s, w⟩ := hRegion_spec hG dt hx
    rw [s.sound.2.2 _ hr]
    exact w.agree
  have r := run_rep hG hc hm.rep run
  have r' := run_rep hG hc' hb.rep back
  have a1 := after hm.rep start
  have a2 := after r turn
  have base : RevF G dt (fRun G dt calls (fieldsOf m) n) (fieldsOf b) := by
    refine ⟨fun a i k ha hI => ?_, fun a i k ha hI => ?_⟩
    · rw [reversed.1 a i k ha hI, r.agree a i k hI]
    · rw [reversed.2 a i k ha hI, a2 a i k hI]
  have key : ∀ j, j ≤ n → RevF G dt (fRun G dt calls (fieldsOf m) (n - j)) (fRun G dt calls' (fieldsOf b) j) := by
    intro j
    induction j with
    | zero => exact fun _ => base
    | succ j ih =>
      intro hj
      have h := ih (by omega)
      rw [show n - j = (n - (j + 1)) + 1 by omega] at h
      obtain ⟨m1, m2⟩ := fRun_material G dt calls (fieldsOf m) (n - (j + 1))
      refine step_back hG dt ?_ ?_ ?_ h
      · intro a i k ha hI
        rw [currents j (by omega) a i k ha hI, show n - 1 - j = n - (j + 1) by omega]
      · intro i k hk
        rw [congrFun (congrFun m1 i) k]
        exact heps i k hk
      · intro i k hk
        rw [congrFun (congrFun m2 i) k]
        exact hsig i k hk
  have last := key n le_rfl
  rw [Nat.sub_self] at last
  refine ⟨fun a i k ha hI => ?_, fun a i k ha hI => ?_⟩
  · rw [r'.agree a i k hI]
    exact last.1 a i k ha hI
  · rw [r'.agree a i k hI, a1 a i k hI]
    exact last.2 a i k ha hI

/-- There and back from fields that are not zero, with currents -/
example (n : ℕ) : ∃ mh m' mh' b b', FieldRun demoGeom 1 (fun _ => demoCalls) n demoMem m' ∧ Reversed demoGeom m' mh' b ∧
    FieldRun demoGeom 1 (fun _ => demoCalls.map fun c => { c with v := -c.v }) n b b' ∧ Reversed demoGeom demoMem mh b' := by
  have ok : CallsOk demoGeom fun _ => demoCalls := fun _ => demoCalls_ok
  have ok' : CallsOk demoGeom fun _ => demoCalls.map fun c => { c with v := -c.v } := by
    intro _ c hc
    obtain ⟨d, hd, rfl⟩ := List.mem_map.1 hc
    exact demoCalls_ok d hd
  obtain ⟨mh, s1, -⟩ := hRegion_spec demoGeom_valid 1 demoMem_initialised.rep
  obtain ⟨m', h1, -, r1⟩ := fieldRun_spec demoGeom_valid 1 ok demoMem_initialised.rep n
  obtain ⟨mh', s2, -⟩ := hRegion_spec demoGeom_valid 1 r1
  obtain ⟨b, hb⟩ : ∃ b : Mem Loc, b = fun l => if l.arr ∈ [Arr.hr, .hphi, .hz] then some (-fieldsOf mh' l.arr l.i l.k) else some (fieldsOf m' l.arr l.i l.k) := ⟨_, rfl⟩
  have ib : Initialised demoGeom b := by
    intro l _
    rw [hb]
    dsimp only
    split_ifs <;> rfl
  have rev : Reversed demoGeom m' mh' b := by
    refine ⟨fun a i k ha _ => ?_, fun a i k ha _ => ?_⟩
    · have : a ∉ [Arr.hr, .hphi, .hz] := by
        simp only [List.mem_cons, List.not_mem_nil, or_false] at ha ⊢
        rcases ha with rfl | rfl | rfl | rfl | rfl <;> simp
      rw [hb]
      simp only [fieldsOf]
      rw [if_neg this, Option.getD_some]
    · rw [hb]
      simp only [fieldsOf]
      rw [if_pos ha, Option.getD_some]
  obtain ⟨b', h2, -⟩ := fieldRun_spec demoGeom_valid 1 ok' ib.rep n
  refine ⟨mh, m', mh', b, b', h1, rev, h2, C118_reversed demoGeom demoGeom_valid 1 _ _ ok ok' demoMem mh m' mh' b b' n demoMem_initialised ib ?_ ?_ s1.sound.2.1 h1 s2.sound.2.1 rev ?_ h2⟩
  · intro i k _; rw [demoMem_fields]; exact one_pos
  · intro i k _; rw [demoMem_fields]; rfl
  · intro j _ a i k _ _
    generalize demoCalls = l
    induction l with
    | nil => simp
    | cons c l ih =>
      rw [List.map_cons, callSum_cons, callSum_cons, ih]
      dsimp only
      split_ifs <;> ring

end Verif
