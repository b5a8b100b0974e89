import Verif.YeeRep

/-!
# The pure field step, and that the parallel programs compute it
-/

namespace Verif

/-- rows of an array that are initialised after set-up -/
def Arr.initRows (G : Geom) : Arr → ℤ
  | .er | .hphi | .hphih | .hz | .hzh | .jr => G.nr - 1
  | _ => G.nr

/-- columns of an array that are initialised after set-up -/
def Arr.initCols (G : Geom) : Arr → ℤ
  | .ez | .hr | .hrh | .hphi | .hphih | .jz => G.nz - 1
  | _ => G.nz

/-- The elements initialised after set-up: the staggered nodes of each component. -/
def Init (G : Geom) (l : Loc) : Prop :=
  0 ≤ l.i ∧ l.i < l.arr.initRows G ∧ 0 ≤ l.k ∧ l.k < l.arr.initCols G

/-- The memory holds `F` on all staggered nodes. -/
abbrev Rep (G : Geom) (F : Fields) (m : Mem Loc) : Prop := RepOn (Init G) F m

/-! ## Pure magnetic step -/

/-- increment of `H_r[i][k]` -/
noncomputable def alphaR (G : Geom) (dt : ℝ) (F : Fields) (i k : ℤ) : ℝ :=
  dt * (F .ephi i (k + 1) - F .ephi i k) / (G.dz * MAGN_CONST)
/-- increment of `H_phi[i][k]` -/
noncomputable def alphaPhi (G : Geom) (dt : ℝ) (F : Fields) (i k : ℤ) : ℝ :=
  dt * ((F .ez (i + 1) k - F .ez i k) / G.dr - (F .er i (k + 1) - F .er i k) / G.dz) / MAGN_CONST
/-- decrement of `H_z[i][k]` -/
noncomputable def alphaZ (G : Geom) (dt : ℝ) (F : Fields) (i k : ℤ) : ℝ :=
  dt * ((F .ephi (i + 1) k + F .ephi i k) / (2 * G.dr * ((i : ℝ) + 0.5))
    + (F .ephi (i + 1) k - F .ephi i k) / G.dr) / MAGN_CONST

/-- index in a rectangle -/
abbrev Box (a b c d i k : ℤ) : Prop := a ≤ i ∧ i < b ∧ c ≤ k ∧ k < d

/-- proof script for `loop_run` goals -/
macro "yee_loop" own:term "," fin:term "," ids:ident,* : tactic => `(tactic| (
  apply loop_run $own _ (by assumption) $fin
  · intro a i k
    cases a <;>
      simp only [par2, parI, parK, $[$ids:ident],*, Prog.rd, Prog.wr, Prog.bind_eq,
        Prog.bind_load, Prog.bind_store, Prog.bind_ret, Fields.at_mk] <;>
      simp only [apply_ite (stores _), apply_ite (lookupStore _), stores, lookupStore,
        Loc.mk.injEq, reduceCtorEq, false_and, if_false, true_and,
        and_true, and_self, if_true, Fields.at_mk, ite_self] <;>
      split_ifs <;>
      first
        | rfl
        | (exfalso; omega)
        | (subst_vars; rfl)
        | skip
  · rintro ⟨t1, t2⟩ l h
    simp only [par2, parI, parK] at h
    split_ifs at h <;>
      simp [$[$ids:ident],*, Prog.rd, Prog.wr, Prog.MayStore] at h
    (try casesm* _ ∨ _) <;> subst_vars <;> simp [$[$ids:ident],*] <;>
      first
        | done
        | omega
  · rintro ⟨t1, t2⟩ l h
    simp only [par2, parI, parK] at h
    split_ifs at h <;>
      simp [$[$ids:ident],*, Prog.rd, Prog.wr, Prog.MayLoad] at h
    try ((try casesm* _ ∨ _) <;> subst_vars <;> simp [$[$ids:ident],*] <;>
      first
        | done
        | omega)
  · rintro ⟨t1, t2⟩
    simp only [par2, parI, parK]
    split_ifs
    · simp [$[$ids:ident],*, Prog.rd, Prog.wr, Safe, Alloc, Arr.rows, Arr.cols, Init,
        Arr.initRows, Arr.initCols] <;> omega
    · trivial))

theorem RepOn.of {D D' : Loc → Prop} {F F' : Fields} {m : Mem Loc} (h : RepOn D F m)
    (h1 : ∀ l, D' l → D l) (h2 : ∀ l, D' l → F.at l = F'.at l) : RepOn D' F' m := by
  intro l hl; rw [h l (h1 l hl), h2 l hl]

theorem Rep.ofAdd {G : Geom} {F : Fields} {m : Mem Loc} {W : Writes}
    (h : RepOn (addDom (Init G) W) F m) : Rep G F m :=
  h.of (fun _ h => Or.inl h) (fun _ _ => rfl)

/-- writes of the last-row `H_r` loop -/
noncomputable def wHr1 (G : Geom) (dt : ℝ) (F : Fields) : Writes
  | .hr, i, k => if Box (G.nr - 1) G.nr 0 (G.nz - 1) i k then
      some (F .hr i k + alphaR G dt F i k) else none
  | .hrh, i, k => if Box (G.nr - 1) G.nr 0 (G.nz - 1) i k then
      some (F .hr i k + alphaR G dt F i k / 2) else none
  | _, _, _ => none

theorem hr1_loop {G : Geom} (hG : G.Valid) (dt : ℝ) {F : Fields} {m : Mem Loc}
    (hR : Rep G F m) :
    LoopSpec (Alloc G) (parK 0 (G.nz - 1) (fun k => hrBody G dt (G.nr - 1) k)) m
        (memWrite (wHr1 G dt F) m) ∧
      Rep G (F.write (wHr1 G dt F)) (memWrite (wHr1 G dt F) m) := by
  have h1 := hG.nr_ge
  have h2 := hG.nz_ge
  suffices h : LoopSpec (Alloc G) (parK 0 (G.nz - 1) (fun k => hrBody G dt (G.nr - 1) k)) m
        (memWrite (wHr1 G dt F) m) ∧
      RepOn (addDom (Init G) (wHr1 G dt F)) (F.write (wHr1 G dt F))
        (memWrite (wHr1 G dt F) m) from ⟨h.1, Rep.ofAdd h.2⟩
  yee_loop (fun l => (0, l.k)), (finite_parK ..), wHr1, hrBody, alphaR

/-- writes of the main `H_r` loop -/
noncomputable def wHr2 (G : Geom) (dt : ℝ) (F : Fields) : Writes
  | .hr, i, k => if Box 0 (G.nr - 1) 0 (G.nz - 1) i k then
      some (F .hr i k + alphaR G dt F i k) else none
  | .hrh, i, k => if Box 0 (G.nr - 1) 0 (G.nz - 1) i k then
      some (F .hr i k + alphaR G dt F i k / 2) else none
  | _, _, _ => none

theorem hr2_loop {G : Geom} (hG : G.Valid) (dt : ℝ) {F : Fields} {m : Mem Loc}
    (hR : Rep G F m) :
    LoopSpec (Alloc G) (par2 0 (G.nr - 1) 0 (G.nz - 1) (hrBody G dt)) m
        (memWrite (wHr2 G dt F) m) ∧
      Rep G (F.write (wHr2 G dt F)) (memWrite (wHr2 G dt F) m) := by
  have h1 := hG.nr_ge
  have h2 := hG.nz_ge
  suffices h : LoopSpec (Alloc G) (par2 0 (G.nr - 1) 0 (G.nz - 1) (hrBody G dt)) m
        (memWrite (wHr2 G dt F) m) ∧
      RepOn (addDom (Init G) (wHr2 G dt F)) (F.write (wHr2 G dt F))
        (memWrite (wHr2 G dt F) m) from ⟨h.1, Rep.ofAdd h.2⟩
  yee_loop (fun l => (l.i, l.k)), (finite_par2 ..), wHr2, hrBody, alphaR

/-- writes of the `H_phi` loop -/
noncomputable def wHphi (G : Geom) (dt : ℝ) (F : Fields) : Writes
  | .hphi, i, k => if Box 0 (G.nr - 1) 0 (G.nz - 1) i k then
      some (F .hphi i k + alphaPhi G dt F i k) else none
  | .hphih, i, k => if Box 0 (G.nr - 1) 0 (G.nz - 1) i k then
      some (F .hphi i k + alphaPhi G dt F i k / 2) else none
  | _, _, _ => none

theorem hphi_loop {G : Geom} (hG : G.Valid) (dt : ℝ) {F : Fields} {m : Mem Loc}
    (hR : Rep G F m) :
    LoopSpec (Alloc G) (par2 0 (G.nr - 1) 0 (G.nz - 1) (hphiBody G dt)) m
        (memWrite (wHphi G dt F) m) ∧
      Rep G (F.write (wHphi G dt F)) (memWrite (wHphi G dt F) m) := by
  have h1 := hG.nr_ge
  have h2 := hG.nz_ge
  suffices h : LoopSpec (Alloc G) (par2 0 (G.nr - 1) 0 (G.nz - 1) (hphiBody G dt)) m
        (memWrite (wHphi G dt F) m) ∧
      RepOn (addDom (Init G) (wHphi G dt F)) (F.write (wHphi G dt F))
        (memWrite (wHphi G dt F) m) from ⟨h.1, Rep.ofAdd h.2⟩
  yee_loop (fun l => (l.i, l.k)), (finite_par2 ..), wHphi, hphiBody, alphaPhi

/-- writes of the `H_z` loop -/
noncomputable def wHz (G : Geom) (dt : ℝ) (F : Fields) : Writes
  | .hz, i, k => if Box 0 (G.nr - 1) 0 (G.nz - 1) i k then
      some (F .hz i k - alphaZ G dt F i k) else none
  | .hzh, i, k => if Box 0 (G.nr - 1) 0 (G.nz - 1) i k then
      some (F .hz i k - alphaZ G dt F i k / 2) else none
  | _, _, _ => none

theorem hz_loop {G : Geom} (hG : G.Valid) (dt : ℝ) {F : Fields} {m : Mem Loc}
    (hR : Rep G F m) :
    LoopSpec (Alloc G) (par2 0 (G.nr - 1) 0 (G.nz - 1) (hzBody G dt)) m
        (memWrite (wHz G dt F) m) ∧
      Rep G (F.write (wHz G dt F)) (memWrite (wHz G dt F) m) := by
  have h1 := hG.nr_ge
  have h2 := hG.nz_ge
  suffices h : LoopSpec (Alloc G) (par2 0 (G.nr - 1) 0 (G.nz - 1) (hzBody G dt)) m
        (memWrite (wHz G dt F) m) ∧
      RepOn (addDom (Init G) (wHz G dt F)) (F.write (wHz G dt F))
        (memWrite (wHz G dt F) m) from ⟨h.1, Rep.ofAdd h.2⟩
  yee_loop (fun l => (l.i, l.k)), (finite_par2 ..), wHz, hzBody, alphaZ

/-! ## Pure electric step -/

/-- `koef_e` at a node -/
noncomputable def kE (dt : ℝ) (F : Fields) (i k : ℤ) : ℝ := koefE (F .eps i k) (F .sig i k) dt
/-- `koef_h` at a node -/
noncomputable def kH (dt : ℝ) (F : Fields) (i k : ℤ) : ℝ := koefH (F .eps i k) (F .sig i k) dt

/-- new `E_r[i][k]` -/
noncomputable def newEr (G : Geom) (dt : ℝ) (F : Fields) (i k : ℤ) : ℝ :=
  F .er i k * kE dt F i k - (F .jr i k + (F .hphi i k - F .hphi i (k - 1)) / G.dz) * kH dt F i k
/-- new `E_phi[i][k]` -/
noncomputable def newEphi (G : Geom) (dt : ℝ) (F : Fields) (i k : ℤ) : ℝ :=
  F .ephi i k * kE dt F i k - (F .jphi i k - (F .hr i k - F .hr i (k - 1)) / G.dz
    + (F .hz i k - F .hz (i - 1) k) / G.dr) * kH dt F i k
/-- new `E_z[i][k]` off axis -/
noncomputable def newEz (G : Geom) (dt : ℝ) (F : Fields) (i k : ℤ) : ℝ :=
  F .ez i k * kE dt F i k - (F .jz i k - (F .hphi i k - F .hphi (i - 1) k) / G.dr
    - (F .hphi i k + F .hphi (i - 1) k) / (2 * G.dr * (i : ℝ))) * kH dt F i k
/-- new `E_z[0][k]` -/
noncomputable def newEz0 (G : Geom) (dt : ℝ) (F : Fields) (i k : ℤ) : ℝ :=
  F .ez i k * kE dt F i k - (F .jz i k - 4 / G.dr * F .hphi i k) * kH dt F i k

/-- writes of the `E_r` loop at `i = 0` -/
noncomputable def wErAxis (G : Geom) (dt : ℝ) (F : Fields) : Writes
  | .er, i, k => if Box 0 1 1 (G.nz - 1) i k then
      some (newEr G dt F i k) else none
  | _, _, _ => none

theorem erAxis_loop {G : Geom} (hG : G.Valid) (dt : ℝ) {F : Fields} {m : Mem Loc}
    (hR : Rep G F m) :
    LoopSpec (Alloc G) (parK 1 (G.nz - 1) (erAxisBody G dt)) m
        (memWrite (wErAxis G dt F) m) ∧
      Rep G (F.write (wErAxis G dt F)) (memWrite (wErAxis G dt F) m) := by
  have h1 := hG.nr_ge
  have h2 := hG.nz_ge
  suffices h : LoopSpec (Alloc G) (parK 1 (G.nz - 1) (erAxisBody G dt)) m
        (memWrite (wErAxis G dt F) m) ∧
      RepOn (addDom (Init G) (wErAxis G dt F)) (F.write (wErAxis G dt F))
        (memWrite (wErAxis G dt F) m) from ⟨h.1, Rep.ofAdd h.2⟩
  yee_loop (fun l => (0, l.k)), (finite_parK ..), wErAxis, erAxisBody, erStore, newEr, kE, kH

/-- writes of the `E_z` loop on the axis -/
noncomputable def wEzAxis (G : Geom) (dt : ℝ) (F : Fields) : Writes
  | .ez, i, k => if Box 0 1 0 (G.nz - 1) i k then
      some (newEz0 G dt F i k) else none
  | _, _, _ => none

theorem ezAxis_loop {G : Geom} (hG : G.Valid) (dt : ℝ) {F : Fields} {m : Mem Loc}
    (hR : Rep G F m) :
    LoopSpec (Alloc G) (parK 0 (G.nz - 1) (ezAxisBody G dt)) m
        (memWrite (wEzAxis G dt F) m) ∧
      Rep G (F.write (wEzAxis G dt F)) (memWrite (wEzAxis G dt F) m) := by
  have h1 := hG.nr_ge
  have h2 := hG.nz_ge
  suffices h : LoopSpec (Alloc G) (parK 0 (G.nz - 1) (ezAxisBody G dt)) m
        (memWrite (wEzAxis G dt F) m) ∧
      RepOn (addDom (Init G) (wEzAxis G dt F)) (F.write (wEzAxis G dt F))
        (memWrite (wEzAxis G dt F) m) from ⟨h.1, Rep.ofAdd h.2⟩
  yee_loop (fun l => (0, l.k)), (finite_parK ..), wEzAxis, ezAxisBody, newEz0, kE, kH

/-- writes of the inner loop -/
noncomputable def wEInner (G : Geom) (dt : ℝ) (F : Fields) : Writes
  | .er, i, k => if Box 1 (G.nr - 1) 1 (G.nz - 1) i k then
      some (newEr G dt F i k) else none
  | .ephi, i, k => if Box 1 (G.nr - 1) 1 (G.nz - 1) i k then
      some (newEphi G dt F i k) else none
  | .ez, i, k => if Box 1 (G.nr - 1) 1 (G.nz - 1) i k then
      some (newEz G dt F i k) else none
  | _, _, _ => none

theorem eInner_loop {G : Geom} (hG : G.Valid) (dt : ℝ) {F : Fields} {m : Mem Loc}
    (hR : Rep G F m) :
    LoopSpec (Alloc G) (par2 1 (G.nr - 1) 1 (G.nz - 1) (eInnerBody G dt)) m
        (memWrite (wEInner G dt F) m) ∧
      Rep G (F.write (wEInner G dt F)) (memWrite (wEInner G dt F) m) := by
  have h1 := hG.nr_ge
  have h2 := hG.nz_ge
  suffices h : LoopSpec (Alloc G) (par2 1 (G.nr - 1) 1 (G.nz - 1) (eInnerBody G dt)) m
        (memWrite (wEInner G dt F) m) ∧
      RepOn (addDom (Init G) (wEInner G dt F)) (F.write (wEInner G dt F))
        (memWrite (wEInner G dt F) m) from ⟨h.1, Rep.ofAdd h.2⟩
  yee_loop (fun l => (l.i, l.k)), (finite_par2 ..), wEInner, eInnerBody, erStore, ephiStore, ezStore, newEr, newEphi, newEz, kE, kH

/-- writes of the `E_z` loop at `k = 0` -/
noncomputable def wEzWall (G : Geom) (dt : ℝ) (F : Fields) : Writes
  | .ez, i, k => if Box 1 (G.nr - 1) 0 1 i k then
      some (newEz G dt F i k) else none
  | _, _, _ => none

theorem ezWall_loop {G : Geom} (hG : G.Valid) (dt : ℝ) {F : Fields} {m : Mem Loc}
    (hR : Rep G F m) :
    LoopSpec (Alloc G) (parI 1 (G.nr - 1) (ezWallBody G dt)) m
        (memWrite (wEzWall G dt F) m) ∧
      Rep G (F.write (wEzWall G dt F)) (memWrite (wEzWall G dt F) m) := by
  have h1 := hG.nr_ge
  have h2 := hG.nz_ge
  suffices h : LoopSpec (Alloc G) (parI 1 (G.nr - 1) (ezWallBody G dt)) m
        (memWrite (wEzWall G dt F) m) ∧
      RepOn (addDom (Init G) (wEzWall G dt F)) (F.write (wEzWall G dt F))
        (memWrite (wEzWall G dt F) m) from ⟨h.1, Rep.ofAdd h.2⟩
  yee_loop (fun l => (l.i, 0)), (finite_parI ..), wEzWall, ezWallBody, ezStore, newEz, kE, kH

end Verif
