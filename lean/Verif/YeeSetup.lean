import Verif.YeePure

/-!
# Set-up of the field arrays, current reset: what the loops leave
-/

namespace Verif

/-- writes of `reset_j` -/
noncomputable def wResetJ (G : Geom) : Writes
  | .jr, i, k => if Box 0 G.nr 0 G.nz i k then some 0 else none
  | .jphi, i, k => if Box 0 G.nr 0 G.nz i k then some 0 else none
  | .jz, i, k => if Box 0 G.nr 0 G.nz i k then some 0 else none
  | _, _, _ => none

theorem resetJ_loop {G : Geom} (hG : G.Valid) {D : Loc → Prop} {F : Fields} {m : Mem Loc}
    (hR : RepOn D F m) :
    LoopSpec (Alloc G) (par2 0 G.nr 0 G.nz (fun i k => do
      Prog.wr ⟨.jr, i, k⟩ 0
      Prog.wr ⟨.jphi, i, k⟩ 0
      Prog.wr ⟨.jz, i, k⟩ 0)) m
        (memWrite (wResetJ G) m) ∧
      RepOn (addDom D (wResetJ G)) (F.write (wResetJ G)) (memWrite (wResetJ G) m) := by
  have h1 := hG.nr_ge
  have h2 := hG.nz_ge
  yee_loop (fun l => (l.i, l.k)), (finite_par2 ..), wResetJ

/-- writes of the `sigma` initialisation -/
noncomputable def wSigma (G : Geom) : Writes
  | .sig, i, k => if Box 0 G.nr 0 G.nz i k then some 0 else none
  | _, _, _ => none

theorem sigma_loop {G : Geom} (hG : G.Valid) {D : Loc → Prop} {F : Fields} {m : Mem Loc}
    (hR : RepOn D F m) :
    LoopSpec (Alloc G) (par2 0 G.nr 0 G.nz (fun i k => Prog.wr ⟨.sig, i, k⟩ 0)) m
        (memWrite (wSigma G) m) ∧
      RepOn (addDom D (wSigma G)) (F.write (wSigma G)) (memWrite (wSigma G) m) := by
  have h1 := hG.nr_ge
  have h2 := hG.nz_ge
  yee_loop (fun l => (l.i, l.k)), (finite_par2 ..), wSigma

/-- writes of `set_epsilon` -/
noncomputable def wEpsilon (G : Geom) : Writes
  | .eps, i, k => if Box 0 G.nr 0 G.nz i k then some 1 else none
  | _, _, _ => none

theorem epsilon_loop {G : Geom} (hG : G.Valid) {D : Loc → Prop} {F : Fields} {m : Mem Loc}
    (hR : RepOn D F m) :
    LoopSpec (Alloc G) (par2 0 G.nr 0 G.nz (fun i k => Prog.wr ⟨.eps, i, k⟩ 1)) m
        (memWrite (wEpsilon G) m) ∧
      RepOn (addDom D (wEpsilon G)) (F.write (wEpsilon G)) (memWrite (wEpsilon G) m) := by
  have h1 := hG.nr_ge
  have h2 := hG.nz_ge
  yee_loop (fun l => (l.i, l.k)), (finite_par2 ..), wEpsilon

/-- writes of the first loop of the HField constructor -/
noncomputable def wHCtor1 (G : Geom) : Writes
  | .hr, i, k => if Box 0 (G.nr - 1) 0 (G.nz - 1) i k then some 0 else none
  | .hphi, i, k => if Box 0 (G.nr - 1) 0 (G.nz - 1) i k then some 0 else none
  | .hz, i, k => if Box 0 (G.nr - 1) 0 (G.nz - 1) i k then some 0 else none
  | .hrh, i, k => if Box 0 (G.nr - 1) 0 (G.nz - 1) i k then some 0 else none
  | .hphih, i, k => if Box 0 (G.nr - 1) 0 (G.nz - 1) i k then some 0 else none
  | .hzh, i, k => if Box 0 (G.nr - 1) 0 (G.nz - 1) i k then some 0 else none
  | _, _, _ => none

theorem hCtor1_loop {G : Geom} (hG : G.Valid) {D : Loc → Prop} {F : Fields} {m : Mem Loc}
    (hR : RepOn D F m) :
    LoopSpec (Alloc G) (par2 0 (G.nr - 1) 0 (G.nz - 1) (fun i k => do
      Prog.wr ⟨.hr, i, k⟩ 0
      Prog.wr ⟨.hphi, i, k⟩ 0
      Prog.wr ⟨.hz, i, k⟩ 0
      Prog.wr ⟨.hrh, i, k⟩ 0
      Prog.wr ⟨.hphih, i, k⟩ 0
      Prog.wr ⟨.hzh, i, k⟩ 0)) m
        (memWrite (wHCtor1 G) m) ∧
      RepOn (addDom D (wHCtor1 G)) (F.write (wHCtor1 G)) (memWrite (wHCtor1 G) m) := by
  have h1 := hG.nr_ge
  have h2 := hG.nz_ge
  yee_loop (fun l => (l.i, l.k)), (finite_par2 ..), wHCtor1

/-- writes of the second loop of the HField constructor -/
noncomputable def wHCtor2 (G : Geom) : Writes
  | .hr, i, k => if Box (G.nr - 1) G.nr 0 (G.nz - 1) i k then some 0 else none
  | .hrh, i, k => if Box (G.nr - 1) G.nr 0 (G.nz - 1) i k then some 0 else none
  | _, _, _ => none

theorem hCtor2_loop {G : Geom} (hG : G.Valid) {D : Loc → Prop} {F : Fields} {m : Mem Loc}
    (hR : RepOn D F m) :
    LoopSpec (Alloc G) (parK 0 (G.nz - 1) (fun k => do
      Prog.wr ⟨.hr, G.nr - 1, k⟩ 0
      Prog.wr ⟨.hrh, G.nr - 1, k⟩ 0)) m
        (memWrite (wHCtor2 G) m) ∧
      RepOn (addDom D (wHCtor2 G)) (F.write (wHCtor2 G)) (memWrite (wHCtor2 G) m) := by
  have h1 := hG.nr_ge
  have h2 := hG.nz_ge
  yee_loop (fun l => (0, l.k)), (finite_parK ..), wHCtor2

/-- writes of the `E_r` border loop -/
noncomputable def wBc1 (G : Geom) : Writes
  | .er, i, k => if 0 ≤ i ∧ i < G.nr - 1 ∧ (k = 0 ∨ k = G.nz - 1) then some 0 else none
  | _, _, _ => none

theorem bc1_loop {G : Geom} (hG : G.Valid) {D : Loc → Prop} {F : Fields} {m : Mem Loc}
    (hR : RepOn D F m) :
    LoopSpec (Alloc G) (parI 0 (G.nr - 1) (fun i => do
      Prog.wr ⟨.er, i, 0⟩ 0
      Prog.wr ⟨.er, i, G.nz - 1⟩ 0)) m
        (memWrite (wBc1 G) m) ∧
      RepOn (addDom D (wBc1 G)) (F.write (wBc1 G)) (memWrite (wBc1 G) m) := by
  have h1 := hG.nr_ge
  have h2 := hG.nz_ge
  yee_loop (fun l => (l.i, 0)), (finite_parI ..), wBc1

/-- writes of the `E_phi` border loop over `k` -/
noncomputable def wBc2 (G : Geom) : Writes
  | .ephi, i, k => if 0 ≤ k ∧ k < G.nz ∧ (i = 0 ∨ i = G.nr - 1) then some 0 else none
  | _, _, _ => none

theorem bc2_loop {G : Geom} (hG : G.Valid) {D : Loc → Prop} {F : Fields} {m : Mem Loc}
    (hR : RepOn D F m) :
    LoopSpec (Alloc G) (parK 0 G.nz (fun k => do
      Prog.wr ⟨.ephi, 0, k⟩ 0
      Prog.wr ⟨.ephi, G.nr - 1, k⟩ 0)) m
        (memWrite (wBc2 G) m) ∧
      RepOn (addDom D (wBc2 G)) (F.write (wBc2 G)) (memWrite (wBc2 G) m) := by
  have h1 := hG.nr_ge
  have h2 := hG.nz_ge
  yee_loop (fun l => (0, l.k)), (finite_parK ..), wBc2

/-- writes of the `E_phi` border loop over `i` -/
noncomputable def wBc3 (G : Geom) : Writes
  | .ephi, i, k => if 0 ≤ i ∧ i < G.nr ∧ (k = 0 ∨ k = G.nz - 1) then some 0 else none
  | _, _, _ => none

theorem bc3_loop {G : Geom} (hG : G.Valid) {D : Loc → Prop} {F : Fields} {m : Mem Loc}
    (hR : RepOn D F m) :
    LoopSpec (Alloc G) (parI 0 G.nr (fun i => do
      Prog.wr ⟨.ephi, i, 0⟩ 0
      Prog.wr ⟨.ephi, i, G.nz - 1⟩ 0)) m
        (memWrite (wBc3 G) m) ∧
      RepOn (addDom D (wBc3 G)) (F.write (wBc3 G)) (memWrite (wBc3 G) m) := by
  have h1 := hG.nr_ge
  have h2 := hG.nz_ge
  yee_loop (fun l => (l.i, 0)), (finite_parI ..), wBc3

/-- writes of the `E_z` border loop -/
noncomputable def wBc4 (G : Geom) : Writes
  | .ez, i, k => if 0 ≤ k ∧ k < G.nz - 1 ∧ (i = 0 ∨ i = G.nr - 1) then some 0 else none
  | _, _, _ => none

theorem bc4_loop {G : Geom} (hG : G.Valid) {D : Loc → Prop} {F : Fields} {m : Mem Loc}
    (hR : RepOn D F m) :
    LoopSpec (Alloc G) (parK 0 (G.nz - 1) (fun k => do
      Prog.wr ⟨.ez, 0, k⟩ 0
      Prog.wr ⟨.ez, G.nr - 1, k⟩ 0)) m
        (memWrite (wBc4 G) m) ∧
      RepOn (addDom D (wBc4 G)) (F.write (wBc4 G)) (memWrite (wBc4 G) m) := by
  have h1 := hG.nr_ge
  have h2 := hG.nz_ge
  yee_loop (fun l => (0, l.k)), (finite_parK ..), wBc4

/-- writes of `set_homogeneous_efield` -/
noncomputable def wHomE (G : Geom) (er ephi ez : ℝ) : Writes
  | .er, i, k => if Box 0 (G.nr - 1) 0 (G.nz - 1) i k then some er else none
  | .ephi, i, k => if Box 0 (G.nr - 1) 0 (G.nz - 1) i k then some ephi else none
  | .ez, i, k => if Box 0 (G.nr - 1) 0 (G.nz - 1) i k then some ez else none
  | _, _, _ => none

theorem homE_loop {G : Geom} (hG : G.Valid) (er ephi ez : ℝ) {D : Loc → Prop} {F : Fields} {m : Mem Loc}
    (hR : RepOn D F m) :
    LoopSpec (Alloc G) (par2 0 (G.nr - 1) 0 (G.nz - 1) (fun i k => do
      Prog.wr ⟨.er, i, k⟩ er
      Prog.wr ⟨.ephi, i, k⟩ ephi
      Prog.wr ⟨.ez, i, k⟩ ez)) m
        (memWrite (wHomE G er ephi ez) m) ∧
      RepOn (addDom D (wHomE G er ephi ez)) (F.write (wHomE G er ephi ez)) (memWrite (wHomE G er ephi ez) m) := by
  have h1 := hG.nr_ge
  have h2 := hG.nz_ge
  yee_loop (fun l => (l.i, l.k)), (finite_par2 ..), wHomE

/-- writes of the `H_r` loop of `set_homogeneous_h` -/
noncomputable def wHomH1 (G : Geom) (v : ℝ) : Writes
  | .hr, i, k => if Box 0 G.nr 0 (G.nz - 1) i k then some v else none
  | .hrh, i, k => if Box 0 G.nr 0 (G.nz - 1) i k then some v else none
  | _, _, _ => none

theorem homH1_loop {G : Geom} (hG : G.Valid) (v : ℝ) {D : Loc → Prop} {F : Fields} {m : Mem Loc}
    (hR : RepOn D F m) :
    LoopSpec (Alloc G) (par2 0 G.nr 0 (G.nz - 1) (fun i k => do
      Prog.wr ⟨.hr, i, k⟩ v
      Prog.wr ⟨.hrh, i, k⟩ v)) m
        (memWrite (wHomH1 G v) m) ∧
      RepOn (addDom D (wHomH1 G v)) (F.write (wHomH1 G v)) (memWrite (wHomH1 G v) m) := by
  have h1 := hG.nr_ge
  have h2 := hG.nz_ge
  yee_loop (fun l => (l.i, l.k)), (finite_par2 ..), wHomH1

/-- writes of the `H_phi` loop of `set_homogeneous_h` -/
noncomputable def wHomH2 (G : Geom) (v : ℝ) : Writes
  | .hphi, i, k => if Box 0 (G.nr - 1) 0 (G.nz - 1) i k then some v else none
  | .hphih, i, k => if Box 0 (G.nr - 1) 0 (G.nz - 1) i k then some v else none
  | _, _, _ => none

theorem homH2_loop {G : Geom} (hG : G.Valid) (v : ℝ) {D : Loc → Prop} {F : Fields} {m : Mem Loc}
    (hR : RepOn D F m) :
    LoopSpec (Alloc G) (par2 0 (G.nr - 1) 0 (G.nz - 1) (fun i k => do
      Prog.wr ⟨.hphi, i, k⟩ v
      Prog.wr ⟨.hphih, i, k⟩ v)) m
        (memWrite (wHomH2 G v) m) ∧
      RepOn (addDom D (wHomH2 G v)) (F.write (wHomH2 G v)) (memWrite (wHomH2 G v) m) := by
  have h1 := hG.nr_ge
  have h2 := hG.nz_ge
  yee_loop (fun l => (l.i, l.k)), (finite_par2 ..), wHomH2

/-- writes of the `H_z` loop of `set_homogeneous_h` -/
noncomputable def wHomH3 (G : Geom) (v : ℝ) : Writes
  | .hz, i, k => if Box 0 (G.nr - 1) 0 G.nz i k then some v else none
  | .hzh, i, k => if Box 0 (G.nr - 1) 0 G.nz i k then some v else none
  | _, _, _ => none

theorem homH3_loop {G : Geom} (hG : G.Valid) (v : ℝ) {D : Loc → Prop} {F : Fields} {m : Mem Loc}
    (hR : RepOn D F m) :
    LoopSpec (Alloc G) (par2 0 (G.nr - 1) 0 G.nz (fun i k => do
      Prog.wr ⟨.hz, i, k⟩ v
      Prog.wr ⟨.hzh, i, k⟩ v)) m
        (memWrite (wHomH3 G v) m) ∧
      RepOn (addDom D (wHomH3 G v)) (F.write (wHomH3 G v)) (memWrite (wHomH3 G v) m) := by
  have h1 := hG.nr_ge
  have h2 := hG.nz_ge
  yee_loop (fun l => (l.i, l.k)), (finite_par2 ..), wHomH3

/-- writes of the first loop of the Current constructor -/
noncomputable def wCur1 (G : Geom) : Writes
  | .jr, i, k => if Box 0 (G.nr - 1) 0 (G.nz - 1) i k then some 0 else none
  | .jphi, i, k => if Box 0 (G.nr - 1) 0 (G.nz - 1) i k then some 0 else none
  | .jz, i, k => if Box 0 (G.nr - 1) 0 (G.nz - 1) i k then some 0 else none
  | _, _, _ => none

theorem cur1_loop {G : Geom} (hG : G.Valid) {D : Loc → Prop} {F : Fields} {m : Mem Loc}
    (hR : RepOn D F m) :
    LoopSpec (Alloc G) (par2 0 (G.nr - 1) 0 (G.nz - 1) (fun i k => do
      Prog.wr ⟨.jr, i, k⟩ 0
      Prog.wr ⟨.jphi, i, k⟩ 0
      Prog.wr ⟨.jz, i, k⟩ 0)) m
        (memWrite (wCur1 G) m) ∧
      RepOn (addDom D (wCur1 G)) (F.write (wCur1 G)) (memWrite (wCur1 G) m) := by
  have h1 := hG.nr_ge
  have h2 := hG.nz_ge
  yee_loop (fun l => (l.i, l.k)), (finite_par2 ..), wCur1

/-- writes of the second loop of the Current constructor -/
noncomputable def wCur2 (G : Geom) : Writes
  | .jr, i, k => if 0 ≤ i ∧ i < G.nr - 1 ∧ k = G.nz - 1 then some 0 else none
  | _, _, _ => none

theorem cur2_loop {G : Geom} (hG : G.Valid) {D : Loc → Prop} {F : Fields} {m : Mem Loc}
    (hR : RepOn D F m) :
    LoopSpec (Alloc G) (parI 0 (G.nr - 1) (fun i => Prog.wr ⟨.jr, i, G.nz - 1⟩ 0)) m
        (memWrite (wCur2 G) m) ∧
      RepOn (addDom D (wCur2 G)) (F.write (wCur2 G)) (memWrite (wCur2 G) m) := by
  have h1 := hG.nr_ge
  have h2 := hG.nz_ge
  yee_loop (fun l => (l.i, 0)), (finite_parI ..), wCur2

/-- writes of the third loop of the Current constructor -/
noncomputable def wCur3 (G : Geom) : Writes
  | .jphi, i, k => if 0 ≤ k ∧ k < G.nz ∧ i = G.nr - 1 then some 0 else none
  | _, _, _ => none

theorem cur3_loop {G : Geom} (hG : G.Valid) {D : Loc → Prop} {F : Fields} {m : Mem Loc}
    (hR : RepOn D F m) :
    LoopSpec (Alloc G) (parK 0 G.nz (fun k => Prog.wr ⟨.jphi, G.nr - 1, k⟩ 0)) m
        (memWrite (wCur3 G) m) ∧
      RepOn (addDom D (wCur3 G)) (F.write (wCur3 G)) (memWrite (wCur3 G) m) := by
  have h1 := hG.nr_ge
  have h2 := hG.nz_ge
  yee_loop (fun l => (0, l.k)), (finite_parK ..), wCur3

/-- writes of the fourth loop of the Current constructor -/
noncomputable def wCur4 (G : Geom) : Writes
  | .jphi, i, k => if 0 ≤ i ∧ i < G.nr ∧ k = G.nz - 1 then some 0 else none
  | _, _, _ => none

theorem cur4_loop {G : Geom} (hG : G.Valid) {D : Loc → Prop} {F : Fields} {m : Mem Loc}
    (hR : RepOn D F m) :
    LoopSpec (Alloc G) (parI 0 G.nr (fun i => Prog.wr ⟨.jphi, i, G.nz - 1⟩ 0)) m
        (memWrite (wCur4 G) m) ∧
      RepOn (addDom D (wCur4 G)) (F.write (wCur4 G)) (memWrite (wCur4 G) m) := by
  have h1 := hG.nr_ge
  have h2 := hG.nz_ge
  yee_loop (fun l => (l.i, 0)), (finite_parI ..), wCur4

/-- writes of the fifth loop of the Current constructor -/
noncomputable def wCur5 (G : Geom) : Writes
  | .jz, i, k => if 0 ≤ k ∧ k < G.nz - 1 ∧ i = G.nr - 1 then some 0 else none
  | _, _, _ => none

theorem cur5_loop {G : Geom} (hG : G.Valid) {D : Loc → Prop} {F : Fields} {m : Mem Loc}
    (hR : RepOn D F m) :
    LoopSpec (Alloc G) (parK 0 (G.nz - 1) (fun k => Prog.wr ⟨.jz, G.nr - 1, k⟩ 0)) m
        (memWrite (wCur5 G) m) ∧
      RepOn (addDom D (wCur5 G)) (F.write (wCur5 G)) (memWrite (wCur5 G) m) := by
  have h1 := hG.nr_ge
  have h2 := hG.nz_ge
  yee_loop (fun l => (0, l.k)), (finite_parK ..), wCur5

end Verif
