import Verif.YeeProps

/-!
# Both directions along the axis, both directions of time (C117, C118)
-/

namespace Verif

/-! ## Specification -/

/-- The column of the mirror image of a staggered node: nodes half a cell off the columns have one column less. -/
def Arr.mirrorCol (G : Geom) : Arr → ℤ → ℤ
  | .ez, k | .jz, k | .hr, k | .hrh, k | .hphi, k | .hphih, k => G.nz - 2 - k
  | _, k => G.nz - 1 - k

/-- The sign of a component in the mirror: the electric field and the current are vectors, the magnetic field is an axial vector. -/
def Arr.mirrorSign : Arr → ℝ
  | .ez | .jz | .hr | .hrh | .hphi | .hphih => -1
  | _ => 1

/-- The second memory holds the mirror image of what the first holds, the mirror being in the middle of the chamber. -/
def MirrorImage (G : Geom) (m m' : Mem Loc) : Prop :=
  ∀ a i k, Init G ⟨a, i, k⟩ → fieldsOf m' a i k = a.mirrorSign * fieldsOf m a i (a.mirrorCol G k)

/-- The currents of the second run are the mirror image of those of the first. -/
def MirrorCalls (G : Geom) (calls calls' : List JCall) : Prop :=
  ∀ a i k, a = .jr ∨ a = .jphi ∨ a = .jz → Init G ⟨a, i, k⟩ → callSum calls' a i k = a.mirrorSign * callSum calls a i (a.mirrorCol G k)

/-- Permittivity and conductivity do not change along the axis. -/
def AxiallyUniform (G : Geom) (m : Mem Loc) : Prop :=
  ∀ i k, Box 0 G.nr 0 G.nz i k → fieldsOf m .eps i k = fieldsOf m .eps i 0 ∧ fieldsOf m .sig i k = fieldsOf m .sig i 0

/-- The end walls: no electric field around the axis, and the same magnetic field normal to them at both times that are kept. -/
def EndWalls (G : Geom) (F : Fields) : Prop :=
  (∀ i : ℤ, 0 ≤ i → i < G.nr → F .ephi i 0 = 0 ∧ F .ephi i (G.nz - 1) = 0) ∧
  ∀ i : ℤ, 0 ≤ i → i < G.nr - 1 → F .hzh i 0 = F .hz i 0 ∧ F .hzh i (G.nz - 1) = F .hz i (G.nz - 1)

namespace Mirror

/-- `MirrorImage`, for fields -/
def MirF (G : Geom) (F F' : Fields) : Prop := ∀ a i k, Init G ⟨a, i, k⟩ → F' a i k = a.mirrorSign * F a i (a.mirrorCol G k)

/-- `AxiallyUniform`, for fields -/
def UniF (G : Geom) (F : Fields) : Prop := ∀ i k, Box 0 G.nr 0 G.nz i k → F .eps i k = F .eps i 0 ∧ F .sig i k = F .sig i 0

variable {G : Geom} {F F' : Fields}

theorem hStep_mirror (hG : G.Valid) (dt : ℝ) (h : MirF G F F') (w : EndWalls G F) : MirF G (hStep G dt F) (hStep G dt F') := by
  have n1 := hG.nr_ge
  have n2 := hG.nz_ge
  obtain ⟨w1, w2⟩ := w
  intro a i k hI
  have hI' := hI
  simp only [Init] at hI'
  have az : ∀ k', k' = 0 ∨ k' = (G.nz : ℤ) - 1 → 0 ≤ i → i < G.nr - 1 → alphaZ G dt F i k' = 0 := by
    intro k' hk a1 a2
    unfold alphaZ
    obtain ⟨x1, x2⟩ := w1 i (by omega) (by omega)
    obtain ⟨y1, y2⟩ := w1 (i + 1) (by omega) (by omega)
    rcases hk with rfl | rfl
    · rw [x1, y1]; simp
    · rw [x2, y2]; simp
  have r : ∀ i k : ℤ, 0 ≤ i → i < G.nr → 0 ≤ k → k < G.nz - 1 → alphaR G dt F' i k = -alphaR G dt F i (G.nz - 2 - k) := by
    intro i k a1 a2 a3 a4
    unfold alphaR
    rw [h .ephi i (k + 1) (by simp only [Init, Arr.initRows, Arr.initCols]; omega), h .ephi i k (by simp only [Init, Arr.initRows, Arr.initCols]; omega)]
    simp only [Arr.mirrorSign, Arr.mirrorCol]
    rw [show (G.nz : ℤ) - 1 - (k + 1) = G.nz - 2 - k by ring, show (G.nz : ℤ) - 2 - k + 1 = G.nz - 1 - k by ring]
    ring
  have p : ∀ i k : ℤ, 0 ≤ i → i < G.nr - 1 → 0 ≤ k → k < G.nz - 1 → alphaPhi G dt F' i k = -alphaPhi G dt F i (G.nz - 2 - k) := by
    intro i k a1 a2 a3 a4
    unfold alphaPhi
    rw [h .ez (i + 1) k (by simp only [Init, Arr.initRows, Arr.initCols]; omega), h .ez i k (by simp only [Init, Arr.initRows, Arr.initCols]; omega),
      h .er i (k + 1) (by simp only [Init, Arr.initRows, Arr.initCols]; omega), h .er i k (by simp only [Init, Arr.initRows, Arr.initCols]; omega)]
    simp only [Arr.mirrorSign, Arr.mirrorCol]
    rw [show (G.nz : ℤ) - 1 - (k + 1) = G.nz - 2 - k by ring, show (G.nz : ℤ) - 2 - k + 1 = G.nz - 1 - k by ring]
    ring
  have z : ∀ i k : ℤ, 0 ≤ i → i < G.nr - 1 → 0 ≤ k → k < G.nz → alphaZ G dt F' i k = alphaZ G dt F i (G.nz - 1 - k) := by
    intro i k a1 a2 a3 a4
    unfold alphaZ
    rw [h .ephi (i + 1) k (by simp only [Init, Arr.initRows, Arr.initCols]; omega), h .ephi i k (by simp only [Init, Arr.initRows, Arr.initCols]; omega)]
    simp only [Arr.mirrorSign, Arr.mirrorCol, one_mul]
  cases a <;> simp only [Arr.initRows, Arr.initCols] at hI'
  case hr =>
    have e := h .hr i k hI
    simp only [Arr.mirrorSign, Arr.mirrorCol] at e ⊢
    simp only [hStep]
    rw [if_pos ⟨by omega, by omega, by omega, by omega⟩, if_pos ⟨by omega, by omega, by omega, by omega⟩, e, r i k (by omega) (by omega) (by omega) (by omega)]
    ring
  case hrh =>
    have e := h .hr i k hI
    simp only [Arr.mirrorSign, Arr.mirrorCol] at e ⊢
    simp only [hStep]
    rw [if_pos ⟨by omega, by omega, by omega, by omega⟩, if_pos ⟨by omega, by omega, by omega, by omega⟩, e, r i k (by omega) (by omega) (by omega) (by omega)]
    ring
  case hphi =>
    have e := h .hphi i k hI
    simp only [Arr.mirrorSign, Arr.mirrorCol] at e ⊢
    simp only [hStep]
    rw [if_pos ⟨by omega, by omega, by omega, by omega⟩, if_pos ⟨by omega, by omega, by omega, by omega⟩, e, p i k (by omega) (by omega) (by omega) (by omega)]
    ring
  case hphih =>
    have e := h .hphi i k hI
    simp only [Arr.mirrorSign, Arr.mirrorCol] at e ⊢
    simp only [hStep]
    rw [if_pos ⟨by omega, by omega, by omega, by omega⟩, if_pos ⟨by omega, by omega, by omega, by omega⟩, e, p i k (by omega) (by omega) (by omega) (by omega)]
    ring
  case hz =>
    have e := h .hz i k hI
    have q := z i k (by omega) (by omega) (by omega) (by omega)
    simp only [Arr.mirrorSign, Arr.mirrorCol, one_mul] at e ⊢
    simp only [hStep]
    split_ifs with c1 c2 c2
    · rw [e, q]
    · rw [e, q, az _ (by right; simp only [Box] at c1 c2; omega) (by omega) (by omega), sub_zero]
    · rw [e, az _ (by left; simp only [Box] at c1 c2; omega) (by omega) (by omega), sub_zero]
    · simp only [Box] at c1 c2; omega
  case hzh =>
    have e := h .hz i k hI
    have e' := h .hzh i k hI
    have q := z i k (by omega) (by omega) (by omega) (by omega)
    simp only [Arr.mirrorSign, Arr.mirrorCol, one_mul] at e e' ⊢
    simp only [hStep]
    split_ifs with c1 c2 c2
    · rw [e, q]
    · have hk : (G.nz : ℤ) - 1 - k = G.nz - 1 := by simp only [Box] at c1 c2; omega
      rw [e, q, az _ (Or.inr hk) (by omega) (by omega), hk, (w2 i (by omega) (by omega)).2]
      simp
    · have hk : (G.nz : ℤ) - 1 - k = 0 := by simp only [Box] at c1 c2; omega
      rw [e', az _ (Or.inl hk) (by omega) (by omega), hk, (w2 i (by omega) (by omega)).1]
      simp
    · simp only [Box] at c1 c2; omega
  all_goals exact h _ i k hI

theorem eStep_mirror (hG : G.Valid) (dt : ℝ) (h : MirF G F F') (u : UniF G F) : MirF G (eStep G dt F) (eStep G dt F') := by
  have n1 := hG.nr_ge
  have n2 := hG.nz_ge
  have mat : ∀ i k k', Box 0 G.nr 0 G.nz i k → Box 0 G.nr 0 G.nz i k' → kE dt F' i k = kE dt F i k' ∧ kH dt F' i k = kH dt F i k' := by
    intro i k k' hk hk'
    have e1 := h .eps i k ⟨hk.1, hk.2.1, hk.2.2.1, hk.2.2.2⟩
    have e2 := h .sig i k ⟨hk.1, hk.2.1, hk.2.2.1, hk.2.2.2⟩
    simp only [Arr.mirrorSign, Arr.mirrorCol, one_mul] at e1 e2
    obtain ⟨u1, u2⟩ := u i (G.nz - 1 - k) (by simp only [Box] at *; omega)
    obtain ⟨v1, v2⟩ := u i k' hk'
    unfold kE kH
    rw [e1, e2, u1, u2, v1, v2]
    exact ⟨rfl, rfl⟩
  intro a i k hI
  have hI' := hI
  simp only [Init] at hI'
  cases a <;> simp only [Arr.initRows, Arr.initCols] at hI'
  case er =>
    have e := h .er i k hI
    have j := h .jr i k (by simp only [Init, Arr.initRows, Arr.initCols]; omega)
    simp only [Arr.mirrorSign, Arr.mirrorCol, one_mul] at e j ⊢
    simp only [eStep]
    by_cases c : Box 0 (G.nr - 1) 1 (G.nz - 1) i k
    · have p1 := h .hphi i k (by simp only [Init, Arr.initRows, Arr.initCols, Box] at *; omega)
      have p2 := h .hphi i (k - 1) (by simp only [Init, Arr.initRows, Arr.initCols, Box] at *; omega)
      simp only [Arr.mirrorSign, Arr.mirrorCol] at p1 p2
      obtain ⟨m1, m2⟩ := mat i k (G.nz - 1 - k) (by simp only [Box] at *; omega) (by simp only [Box] at *; omega)
      rw [if_pos c, if_pos (by simp only [Box] at *; omega)]
      unfold newEr
      rw [e, j, p1, p2, m1, m2, show (G.nz : ℤ) - 2 - (k - 1) = G.nz - 1 - k by ring, show (G.nz : ℤ) - 1 - k - 1 = G.nz - 2 - k by ring]
      ring
    · rw [if_neg c, if_neg (by simp only [Box] at *; omega), e]
  case ephi =>
    have e := h .ephi i k hI
    have j := h .jphi i k (by simp only [Init, Arr.initRows, Arr.initCols]; omega)
    simp only [Arr.mirrorSign, Arr.mirrorCol, one_mul] at e j ⊢
    simp only [eStep]
    by_cases c : Box 1 (G.nr - 1) 1 (G.nz - 1) i k
    · have p1 := h .hr i k (by simp only [Init, Arr.initRows, Arr.initCols, Box] at *; omega)
      have p2 := h .hr i (k - 1) (by simp only [Init, Arr.initRows, Arr.initCols, Box] at *; omega)
      have p3 := h .hz i k (by simp only [Init, Arr.initRows, Arr.initCols, Box] at *; omega)
      have p4 := h .hz (i - 1) k (by simp only [Init, Arr.initRows, Arr.initCols, Box] at *; omega)
      simp only [Arr.mirrorSign, Arr.mirrorCol, one_mul] at p1 p2 p3 p4
      obtain ⟨m1, m2⟩ := mat i k (G.nz - 1 - k) (by simp only [Box] at *; omega) (by simp only [Box] at *; omega)
      rw [if_pos c, if_pos (by simp only [Box] at *; omega)]
      unfold newEphi
      rw [e, j, p1, p2, p3, p4, m1, m2, show (G.nz : ℤ) - 2 - (k - 1) = G.nz - 1 - k by ring, show (G.nz : ℤ) - 1 - k - 1 = G.nz - 2 - k by ring]
      ring
    · rw [if_neg c, if_neg (by simp only [Box] at *; omega), e]
  case ez =>
    have e := h .ez i k hI
    have j := h .jz i k (by simp only [Init, Arr.initRows, Arr.initCols]; omega)
    simp only [Arr.mirrorSign, Arr.mirrorCol] at e j ⊢
    obtain ⟨m1, m2⟩ := mat i k (G.nz - 2 - k) (by simp only [Box] at *; omega) (by simp only [Box] at *; omega)
    simp only [eStep]
    by_cases c0 : Box 0 1 0 (G.nz - 1) i k
    · have p1 := h .hphi i k (by simp only [Init, Arr.initRows, Arr.initCols, Box] at *; omega)
      simp only [Arr.mirrorSign, Arr.mirrorCol] at p1
      rw [if_pos c0, if_pos (by simp only [Box] at *; omega)]
      unfold newEz0
      rw [e, j, p1, m1, m2]
      ring
    · rw [if_neg c0, if_neg (c := Box 0 1 0 (G.nz - 1) i (G.nz - 2 - k)) (by simp only [Box] at *; omega)]
      by_cases c : Box 1 (G.nr - 1) 0 (G.nz - 1) i k
      · have p1 := h .hphi i k (by simp only [Init, Arr.initRows, Arr.initCols, Box] at *; omega)
        have p2 := h .hphi (i - 1) k (by simp only [Init, Arr.initRows, Arr.initCols, Box] at *; omega)
        simp only [Arr.mirrorSign, Arr.mirrorCol] at p1 p2
        rw [if_pos c, if_pos (by simp only [Box] at *; omega)]
        unfold newEz
        rw [e, j, p1, p2, m1, m2]
        ring
      · rw [if_neg c, if_neg (by simp only [Box] at *; omega), e]
  all_goals exact h _ i k hI

theorem walls_step (hG : G.Valid) (dt : ℝ) (x y z : Grid) (w : EndWalls G F) : EndWalls G (fStep G dt x y z F) := by
  have n1 := hG.nr_ge
  have n2 := hG.nz_ge
  obtain ⟨w1, w2⟩ := w
  refine ⟨fun i a b => ?_, fun i a b => ?_⟩
  · simp only [fStep, eStep, withJ, hStep]
    rw [if_neg (by simp only [Box]; omega), if_neg (by simp only [Box]; omega)]
    exact w1 i a b
  · simp only [fStep, eStep, withJ, hStep]
    obtain ⟨x1, -⟩ := w1 i (by omega) (by omega)
    obtain ⟨y1, -⟩ := w1 (i + 1) (by omega) (by omega)
    rw [if_pos (by simp only [Box]; omega), if_pos (by simp only [Box]; omega), if_neg (by simp only [Box]; omega), if_neg (by simp only [Box]; omega)]
    refine ⟨?_, (w2 i a b).2⟩
    unfold alphaZ
    rw [x1, y1]
    simp

theorem fRun_mirror (hG : G.Valid) (dt : ℝ) {calls calls' : ℕ → List JCall} (hc : ∀ n, MirrorCalls G (calls n) (calls' n))
    (h : MirF G F F') (u : UniF G F) (w : EndWalls G F) (n : ℕ) :
    MirF G (fRun G dt calls F n) (fRun G dt calls' F' n) ∧ EndWalls G (fRun G dt calls F n) ∧ UniF G (fRun G dt calls F n) := by
  induction n with
  | zero => exact ⟨h, w, u⟩
  | succ n ih =>
    obtain ⟨a, b, c⟩ := ih
    refine ⟨?_, walls_step hG dt _ _ _ b, c⟩
    refine eStep_mirror hG dt ?_ c
    have s := hStep_mirror hG dt a b
    intro x i k hI
    cases x
    case jr => exact hc n .jr i k (by simp) hI
    case jphi => exact hc n .jphi i k (by simp) hI
    case jz => exact hc n .jz i k (by simp) hI
    all_goals exact s _ i k hI

theorem walls_congr (hG : G.Valid) (e : Agree G F F') (w : EndWalls G F) : EndWalls G F' := by
  have n1 := hG.nr_ge
  have n2 := hG.nz_ge
  obtain ⟨w1, w2⟩ := w
  refine ⟨fun i a b => ?_, fun i a b => ?_⟩
  · rw [← agree_at e .ephi i 0 (by rng) (by rng) (by rng) (by rng), ← agree_at e .ephi i (G.nz - 1) (by rng) (by rng) (by rng) (by rng)]
    exact w1 i a b
  · rw [← agree_at e .hz i 0 (by rng) (by rng) (by rng) (by rng), ← agree_at e .hz i (G.nz - 1) (by rng) (by rng) (by rng) (by rng),
      ← agree_at e .hzh i 0 (by rng) (by rng) (by rng) (by rng), ← agree_at e .hzh i (G.nz - 1) (by rng) (by rng) (by rng) (by rng)]
    exact w2 i a b

end Mirror

end Verif
