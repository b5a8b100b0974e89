import Verif.YeeSetup
import Verif.Grid

/-!
# Whole field step: parallel programs refine pure functions
-/

namespace Verif

/-! ## Pure steps -/

/-- pure magnetic update -/
noncomputable def hStep (G : Geom) (dt : ℝ) (F : Fields) : Fields
  | .hr, i, k => if Box 0 G.nr 0 (G.nz - 1) i k then F .hr i k + alphaR G dt F i k else F .hr i k
  | .hrh, i, k =>
    if Box 0 G.nr 0 (G.nz - 1) i k then F .hr i k + alphaR G dt F i k / 2 else F .hrh i k
  | .hphi, i, k =>
    if Box 0 (G.nr - 1) 0 (G.nz - 1) i k then F .hphi i k + alphaPhi G dt F i k else F .hphi i k
  | .hphih, i, k =>
    if Box 0 (G.nr - 1) 0 (G.nz - 1) i k then F .hphi i k + alphaPhi G dt F i k / 2
    else F .hphih i k
  | .hz, i, k =>
    if Box 0 (G.nr - 1) 0 (G.nz - 1) i k then F .hz i k - alphaZ G dt F i k else F .hz i k
  | .hzh, i, k =>
    if Box 0 (G.nr - 1) 0 (G.nz - 1) i k then F .hz i k - alphaZ G dt F i k / 2 else F .hzh i k
  | a, i, k => F a i k

/-- pure electric update -/
noncomputable def eStep (G : Geom) (dt : ℝ) (F : Fields) : Fields
  | .er, i, k => if Box 0 (G.nr - 1) 1 (G.nz - 1) i k then newEr G dt F i k else F .er i k
  | .ephi, i, k => if Box 1 (G.nr - 1) 1 (G.nz - 1) i k then newEphi G dt F i k else F .ephi i k
  | .ez, i, k =>
    if Box 0 1 0 (G.nz - 1) i k then newEz0 G dt F i k
    else if Box 1 (G.nr - 1) 0 (G.nz - 1) i k then newEz G dt F i k else F .ez i k
  | a, i, k => F a i k

/-- replacing the currents -/
def withJ (F : Fields) (jr jphi jz : Grid) : Fields
  | .jr, i, k => jr i k
  | .jphi, i, k => jphi i k
  | .jz, i, k => jz i k
  | a, i, k => F a i k

/-- One pure field step with the given currents. -/
noncomputable def fStep (G : Geom) (dt : ℝ) (jr jphi jz : Grid) (F : Fields) : Fields :=
  eStep G dt (withJ (hStep G dt F) jr jphi jz)

/-- fields right after set-up, with conductivity table `sig` -/
noncomputable def setupFields (sig : Grid) : Fields
  | .eps, _, _ => 1
  | .sig, i, k => sig i k
  | _, _, _ => 0

/-! ## Refinement of the regions -/

theorem Rep.congr {G : Geom} {F F' : Fields} {m : Mem Loc} (h : Rep G F m)
    (e : ∀ a i k, Init G ⟨a, i, k⟩ → F a i k = F' a i k) : Rep G F' m :=
  h.of (fun _ h => h) (fun l hl => e l.arr l.i l.k hl)

theorem hRegion_spec {G : Geom} (hG : G.Valid) (dt : ℝ) {F : Fields} {m : Mem Loc}
    (hR : Rep G F m) : ∃ m', RegionSpec (Alloc G) (hRegion G dt) m m' ∧ Rep G (hStep G dt F) m' := by
  obtain ⟨s1, r1⟩ := hr1_loop hG dt hR
  obtain ⟨s2, r2⟩ := hr2_loop hG dt r1
  obtain ⟨s3, r3⟩ := hphi_loop hG dt r2
  obtain ⟨s4, r4⟩ := hz_loop hG dt r3
  refine ⟨_, .cons s1 (.cons s2 (.cons s3 (.cons s4 (.nil _)))), r4.congr ?_⟩
  intro a i k hI
  have h1 := hG.nr_ge
  have h2 := hG.nz_ge
  cases a <;> simp only [Fields.write, wHr1, wHr2, wHphi, wHz, hStep, alphaR, alphaPhi, alphaZ,
    Option.getD_none] <;> split_ifs <;>
    first
      | rfl
      | (exfalso; omega)

theorem eRegion_spec {G : Geom} (hG : G.Valid) (dt : ℝ) {F : Fields} {m : Mem Loc}
    (hR : Rep G F m) : ∃ m', RegionSpec (Alloc G) (eRegion G dt) m m' ∧ Rep G (eStep G dt F) m' ∧
      ∀ l : Loc, l.arr ≠ .er → l.arr ≠ .ephi → l.arr ≠ .ez → m' l = m l := by
  obtain ⟨s1, r1⟩ := erAxis_loop hG dt hR
  obtain ⟨s2, r2⟩ := ezAxis_loop hG dt r1
  obtain ⟨s3, r3⟩ := eInner_loop hG dt r2
  obtain ⟨s4, r4⟩ := ezWall_loop hG dt r3
  refine ⟨_, .cons s1 (.cons s2 (.cons s3 (.cons s4 (.nil _)))), r4.congr ?_, ?_⟩
  swap
  · rintro ⟨a, i, k⟩ n1 n2 n3
    cases a <;> simp [memWrite, wErAxis, wEzAxis, wEInner, wEzWall] at *
  intro a i k hI
  have h1 := hG.nr_ge
  have h2 := hG.nz_ge
  cases a <;> simp only [Fields.write, wErAxis, wEzAxis, wEInner, wEzWall, eStep, newEr, newEphi,
    newEz, newEz0, kE, kH, Option.getD_none] <;> split_ifs <;>
    first
      | rfl
      | (exfalso; omega)

theorem resetJ_spec {G : Geom} (hG : G.Valid) {F : Fields} {m : Mem Loc} (hR : Rep G F m) :
    RegionSpec (Alloc G) (resetJRegion G) m (memWrite (wResetJ G) m) ∧
      RepOn (addDom (Init G) (wResetJ G)) (F.write (wResetJ G)) (memWrite (wResetJ G) m) := by
  obtain ⟨s1, r1⟩ := resetJ_loop hG hR
  exact ⟨.cons s1 (.nil _), r1⟩

/-! ## Deposition -/

/-- what the calls add to an element -/
noncomputable def callSum (l : List JCall) (a : Arr) (i k : ℤ) : ℝ :=
  (l.map (fun c => if c.arr = a ∧ c.i = i ∧ c.k = k then c.v else 0)).sum

@[simp] theorem callSum_nil (a : Arr) (i k : ℤ) : callSum [] a i k = 0 := rfl

@[simp] theorem callSum_cons (c : JCall) (l : List JCall) (a : Arr) (i k : ℤ) :
    callSum (c :: l) a i k =
      (if c.arr = a ∧ c.i = i ∧ c.k = k then c.v else 0) + callSum l a i k := by
  simp [callSum]

theorem callSum_perm {l l' : List JCall} (h : l.Perm l') (a : Arr) (i k : ℤ) :
    callSum l a i k = callSum l' a i k := (h.map _).sum_eq

/-- increments inside the allocation of initialised elements succeed and add up -/
theorem incsMem_some {G : Geom} (l : List JCall) : ∀ (m : Mem Loc),
    (∀ c ∈ l, Alloc G ⟨c.arr, c.i, c.k⟩ ∧ (m ⟨c.arr, c.i, c.k⟩).isSome) →
    incsMem G l m = some (fun x => (m x).map (· + callSum l x.arr x.i x.k)) := by
  induction l with
  | nil =>
    intro m _
    simp only [incsMem, List.foldlM_nil, callSum_nil, add_zero, Option.map_id', Option.pure_def]
  | cons c l ih =>
    intro m h
    obtain ⟨h1, h2⟩ := h c (by simp)
    obtain ⟨v, hv⟩ := Option.isSome_iff_exists.1 h2
    have e : incsMem G (c :: l) m = (incMem G m c).bind (incsMem G l) := by
      simp only [incsMem, List.foldlM_cons]; rfl
    rw [e, incMem, if_pos h1, hv, Option.map_some, Option.bind_some, ih]
    · congr 1
      funext ⟨a, i, k⟩
      by_cases hx : (⟨a, i, k⟩ : Loc) = ⟨c.arr, c.i, c.k⟩
      · rw [hx, Function.update_self, hv]
        simp only [Option.map_some, callSum_cons, and_self, if_true, add_assoc]
      · rw [Function.update_of_ne hx]
        have : ¬ (c.arr = a ∧ c.i = i ∧ c.k = k) := by
          rintro ⟨rfl, rfl, rfl⟩; exact hx rfl
        simp only [callSum_cons, if_neg this, zero_add]
    · intro d hd
      refine ⟨(h d (by simp [hd])).1, ?_⟩
      by_cases hx : (⟨d.arr, d.i, d.k⟩ : Loc) = ⟨c.arr, c.i, c.k⟩
      · rw [hx, Function.update_self]; rfl
      · rw [Function.update_of_ne hx]; exact (h d (by simp [hd])).2

/-! ## The step -/

theorem callSum_other {G : Geom} {l : List JCall} (h : ∀ c ∈ l, c.Ok G) {a : Arr}
    (ha : a ≠ .jr ∧ a ≠ .jphi ∧ a ≠ .jz) (i k : ℤ) : callSum l a i k = 0 := by
  induction l with
  | nil => rfl
  | cons c l ih =>
    rw [callSum_cons, ih (fun d hd => h d (by simp [hd])), add_zero, if_neg]
    rintro ⟨rfl, -, -⟩
    rcases (h c (by simp)).1 with h | h | h
    · exact ha.1 h
    · exact ha.2.1 h
    · exact ha.2.2 h

/-- What one field step does, under every schedule. -/
theorem fieldStep_spec {G : Geom} (hG : G.Valid) (dt : ℝ) {calls : List JCall}
    (hc : ∀ c ∈ calls, c.Ok G) {F : Fields} {m : Mem Loc} (hR : Rep G F m) :
    ¬ FieldStepFault G dt calls m ∧ ∃ m', FieldStep G dt calls m m' ∧
      (∀ m'', FieldStep G dt calls m m'' → m'' = m') ∧
      Rep G (fStep G dt (callSum calls .jr) (callSum calls .jphi) (callSum calls .jz) F) m' ∧
      ∀ a i k, (a = .jr ∨ a = .jphi ∨ a = .jz) → Box 0 G.nr 0 G.nz i k →
        m' ⟨a, i, k⟩ = some (callSum calls a i k) := by
  obtain ⟨m1, s1, r1⟩ := hRegion_spec hG dt hR
  obtain ⟨s2, r2⟩ := resetJ_spec hG r1
  obtain ⟨f1, x1, u1⟩ := s1.sound
  obtain ⟨f2, x2, u2⟩ := s2.sound
  set m2 := memWrite (wResetJ G) m1 with hm2
  have hdep : ∀ l : List JCall, l.Perm calls → incsMem G l m2 =
      some (fun x => (m2 x).map (· + callSum calls x.arr x.i x.k)) := by
    intro l hl
    rw [incsMem_some l m2]
    · simp only [callSum_perm hl]
    · intro c hcl
      obtain ⟨ha, b1, b2, b3, b4⟩ := hc c (hl.mem_iff.1 hcl)
      constructor
      · rcases ha with ha | ha | ha <;> simp [Alloc, Arr.rows, Arr.cols, ha] <;> omega
      · rcases ha with ha | ha | ha <;> simp [hm2, memWrite, wResetJ, ha, b1, b2, b3, b4, Box]
  set m3 : Mem Loc := fun x => (m2 x).map (· + callSum calls x.arr x.i x.k) with hm3
  have r3 : Rep G (withJ (hStep G dt F) (callSum calls .jr) (callSum calls .jphi)
      (callSum calls .jz)) m3 := by
    rintro ⟨a, i, k⟩ hI
    have := r2 ⟨a, i, k⟩ (Or.inl hI)
    simp only [hm3, this, Option.map_some]
    congr 1
    have h1 := hG.nr_ge
    have h2 := hG.nz_ge
    cases a <;> simp only [Fields.at, Fields.write, wResetJ, withJ, Option.getD_none] <;>
      first
        | (rw [callSum_other hc (by simp), add_zero]; done)
        | (simp only [Init, Arr.initRows, Arr.initCols] at hI
           rw [if_pos (by omega), Option.getD_some, zero_add])
  obtain ⟨m4, s4, r4, fr4⟩ := eRegion_spec hG dt r3
  obtain ⟨f4, x4, u4⟩ := s4.sound
  refine ⟨?_, m4, ⟨m1, m2, m3, x1, x2, ⟨calls, .refl _, hdep _ (.refl _)⟩, x4⟩, ?_, r4, ?_⟩
  · rintro (h | ⟨n1, h1, h | ⟨n2, h2, ⟨l, hl, h⟩ | ⟨n3, ⟨l, hl, h3⟩, h⟩⟩⟩)
    · exact f1 h
    · rw [u1 _ h1] at h; exact f2 h
    · rw [u1 _ h1] at h2; rw [u2 _ h2, hdep l hl] at h; cases h
    · rw [u1 _ h1] at h2; rw [u2 _ h2, hdep l hl] at h3
      rw [← Option.some.inj h3] at h; exact f4 h
  · rintro m'' ⟨n1, n2, n3, h1, h2, ⟨l, hl, h3⟩, h4⟩
    rw [u1 _ h1] at h2
    rw [u2 _ h2, hdep l hl] at h3
    rw [← Option.some.inj h3] at h4
    exact u4 _ h4
  · intro a i k ha hb
    have : m4 ⟨a, i, k⟩ = m3 ⟨a, i, k⟩ := by
      apply fr4 <;> rcases ha with rfl | rfl | rfl <;> simp
    rw [this, hm3]
    rcases ha with rfl | rfl | rfl <;> simp [hm2, memWrite, wResetJ] <;>
      rw [if_pos hb, if_pos hb]

/-! ## Set-up -/

theorem setup_spec {G : Geom} (hG : G.Valid) (m : Mem Loc) :
    ∃ m', RegionSpec (Alloc G) (setupRegion G) m m' ∧ Rep G (setupFields (fun _ _ => 0)) m' := by
  have r0 : RepOn (fun _ => False) (fun _ _ _ => 0) m := fun _ h => h.elim
  obtain ⟨s1, r1⟩ := sigma_loop hG r0
  obtain ⟨s2, r2⟩ := epsilon_loop hG r1
  obtain ⟨s3, r3⟩ := hCtor1_loop hG r2
  obtain ⟨s4, r4⟩ := hCtor2_loop hG r3
  obtain ⟨s5, r5⟩ := bc1_loop hG r4
  obtain ⟨s6, r6⟩ := bc2_loop hG r5
  obtain ⟨s7, r7⟩ := bc3_loop hG r6
  obtain ⟨s8, r8⟩ := bc4_loop hG r7
  obtain ⟨s9, r9⟩ := homE_loop hG 0 0 0 r8
  obtain ⟨s10, r10⟩ := homH1_loop hG 0 r9
  obtain ⟨s11, r11⟩ := homH2_loop hG 0 r10
  obtain ⟨s12, r12⟩ := homH3_loop hG 0 r11
  obtain ⟨s13, r13⟩ := cur1_loop hG r12
  obtain ⟨s14, r14⟩ := cur2_loop hG r13
  obtain ⟨s15, r15⟩ := cur3_loop hG r14
  obtain ⟨s16, r16⟩ := cur4_loop hG r15
  obtain ⟨s17, r17⟩ := cur5_loop hG r16
  refine ⟨_, .cons s1 (.cons s2 (.cons s3 (.cons s4 (.cons s5 (.cons s6 (.cons s7 (.cons s8
    (.cons s9 (.cons s10 (.cons s11 (.cons s12 (.cons s13 (.cons s14 (.cons s15 (.cons s16
    (.cons s17 (.nil _))))))))))))))))), ?_⟩
  have h1 := hG.nr_ge
  have h2 := hG.nz_ge
  apply r17.of
  · rintro ⟨a, i, k⟩ hI
    cases a <;> simp only [Init, Arr.initRows, Arr.initCols] at hI <;>
      simp only [addDom, wSigma, wEpsilon, wHCtor1, wHCtor2, wBc1, wBc2, wBc3, wBc4, wHomE,
        wHomH1, wHomH2, wHomH3, wCur1, wCur2, wCur3, wCur4, wCur5, Option.isSome_none,
        Bool.false_eq_true, or_false, false_or, Option.isSome_ite] <;> omega
  · rintro ⟨a, i, k⟩ hI
    cases a <;> simp only [Init, Arr.initRows, Arr.initCols] at hI <;>
      simp only [Fields.at, Fields.write, wSigma, wEpsilon, wHCtor1, wHCtor2, wBc1, wBc2, wBc3,
        wBc4, wHomE, wHomH1, wHomH2, wHomH3, wCur1, wCur2, wCur3, wCur4, wCur5, Option.getD_none,
        setupFields] <;>
      split_ifs <;> rfl

/-- the conductivities of a table -/
def wPml (G : Geom) (tbl : ℤ → ℤ → Option ℝ) : Writes
  | .sig, i, k => if Box 0 G.nr 0 G.nz i k then tbl i k else none
  | _, _, _ => none

theorem pml_spec {G : Geom} (tbl : ℤ → ℤ → Option ℝ) {sig : Grid} {m : Mem Loc}
    (hR : Rep G (setupFields sig) m) :
    ∃ m', RegionSpec (Alloc G) (pmlRegion G tbl) m m' ∧
      Rep G (setupFields (fun i k => (tbl i k).getD (sig i k))) m' := by
  suffices h : LoopSpec (Alloc G) (par2 0 G.nr 0 G.nz (fun i k => match tbl i k with
      | some v => Prog.wr ⟨.sig, i, k⟩ v
      | none => .ret ())) m (memWrite (wPml G tbl) m) ∧
      RepOn (addDom (Init G) (wPml G tbl)) ((setupFields sig).write (wPml G tbl))
        (memWrite (wPml G tbl) m) by
    refine ⟨_, .cons h.1 (.nil _), (Rep.ofAdd h.2).congr ?_⟩
    intro a i k hI
    cases a <;> simp only [Fields.write, wPml, setupFields, Option.getD_none]
    simp only [Init, Arr.initRows, Arr.initCols] at hI
    rw [if_pos (by exact hI)]
  apply loop_run (fun l => (l.i, l.k)) _ hR (finite_par2 ..)
  · intro a i k
    cases a <;> simp only [wPml, par2] <;> split_ifs <;> (try cases tbl i k) <;>
      simp [stores, lookupStore, Prog.wr]
  · rintro ⟨t1, t2⟩ l h
    simp only [par2] at h
    split_ifs at h
    · cases ht : tbl t1 t2 with
      | none => rw [ht] at h; simp [Prog.MayStore] at h
      | some v =>
        rw [ht] at h; simp [Prog.wr, Prog.MayStore] at h
        subst h; simp [wPml, ht]; omega
    · simp [Prog.MayStore] at h
  · rintro ⟨t1, t2⟩ l h
    simp only [par2] at h
    split_ifs at h
    · cases ht : tbl t1 t2 <;> rw [ht] at h <;> simp [Prog.wr, Prog.MayLoad] at h
    · simp [Prog.MayLoad] at h
  · rintro ⟨t1, t2⟩
    simp only [par2]
    split_ifs
    · cases ht : tbl t1 t2 <;> simp [Prog.wr, Safe, Alloc, Arr.rows, Arr.cols]; omega
    · trivial

/-! ## Runs -/

/-- pure run -/
noncomputable def fRun (G : Geom) (dt : ℝ) (calls : ℕ → List JCall) (F : Fields) : ℕ → Fields
  | 0 => F
  | n + 1 => fStep G dt (callSum (calls n) .jr) (callSum (calls n) .jphi) (callSum (calls n) .jz)
      (fRun G dt calls F n)

theorem fieldRun_spec {G : Geom} (hG : G.Valid) (dt : ℝ) {calls : ℕ → List JCall}
    (hc : ∀ n, ∀ c ∈ calls n, c.Ok G) {F : Fields} {m : Mem Loc} (hR : Rep G F m) (n : ℕ) :
    ∃ m', FieldRun G dt calls n m m' ∧ (∀ m'', FieldRun G dt calls n m m'' → m'' = m') ∧
      Rep G (fRun G dt calls F n) m' := by
  induction n with
  | zero => exact ⟨m, .zero m, (fun m'' h => by cases h; rfl), hR⟩
  | succ n ih =>
    obtain ⟨m1, h1, u1, r1⟩ := ih
    obtain ⟨-, m2, h2, u2, r2, -⟩ := fieldStep_spec hG dt (hc n) r1
    refine ⟨m2, .succ n m m1 m2 h1 h2, ?_, r2⟩
    intro m'' h
    cases h with
    | succ _ _ x _ hx hs => rw [u1 _ hx] at hs; exact u2 _ hs

end Verif
