import Verif.FieldRoundedCurrents

/-!
# Div B and Gauss's law with the arithmetic of the machine (C111)

C08 and C10 say that exact steps keep the divergence of the magnetic field and the defect of Gauss's law.  With rounding every step
adds something; here the sum over a whole run is bounded.
-/

namespace Verif

/-! ## Specification -/

/-- No value of the electric arrays exceeds `mE`, no value of the magnetic arrays exceeds `mH` -/
structure Within (G : Geom) (mE mH : ℝ) (x : Fields) : Prop where
  elec : ∀ a i k, a = .er ∨ a = .ephi ∨ a = .ez → Box 0 G.nr 0 G.nz i k → |x a i k| ≤ mE
  magn : ∀ a i k, a = .hr ∨ a = .hphi ∨ a = .hz → Box 0 G.nr 0 G.nz i k → |x a i k| ≤ mH

/-- Area of the faces of the control volume of the nodes at radius `a*dr`: the outer and the inner cylinder and the two plane faces -/
noncomputable def surface (G : Geom) (a : ℤ) : ℝ :=
  2 * PI * (max 0 (((a : ℝ) + 1 / 2) * G.dr)) * G.dz + 2 * PI * (max 0 (((a : ℝ) - 1 / 2) * G.dr)) * G.dz
    + 2 * (nodeVolume G a / G.dz)

/-- How much a value of the magnetic field may be wrong after one step -/
noncomputable def roundH (G : Geom) (dt mE mH : ℝ) : ℝ :=
  EPS * (mH + dt / MAGN_CONST * ((2 / G.dz + 4 / G.dr) * mE)) + ETA

/-- How much a value of the electric field may be wrong after one step in a medium without losses -/
noncomputable def roundE (G : Geom) (dt e mE mH mJ : ℝ) : ℝ :=
  EPS * (mE + dt / (e * EPSILON0) * (mJ + (2 / G.dz + 4 / G.dr) * mH)) + ETA

/-! ## Divergence of H -/

theorem RoundsTo.bound {m M x y : ℝ} (h : RoundsTo m x y) (hm : m ≤ M) : |y - x| ≤ EPS * M + ETA := by
  have := EPS_pos
  unfold RoundsTo at h
  nlinarith [mul_le_mul_of_nonneg_left hm this.le]

theorem sizeE_within {G : Geom} (hG : G.Valid) {mE mH : ℝ} {x : Fields} (hx : Within G mE mH x) {a : Arr} {i k : ℤ}
    (ha : a = .hr ∨ a = .hz) (hn : HNode G a i k) : sizeE G x a i k ≤ (2 / G.dz + 4 / G.dr) * mE := by
  have dr := hG.dr_pos
  have dz := hG.dz_pos
  have n1 := hG.nr_ge
  have n2 := hG.nz_ge
  have m0 : 0 ≤ mE := (abs_nonneg _).trans (hx.elec .er 0 0 (by simp) (by simp only [Box]; omega))
  rcases ha with rfl | rfl <;> simp only [HNode, Box] at hn <;> simp only [sizeE]
  · have h1 := hx.elec .ephi i (k + 1) (by simp) (by simp only [Box]; omega)
    have h2 := hx.elec .ephi i k (by simp) (by simp only [Box]; omega)
    have : (|x .ephi i (k + 1)| + |x .ephi i k|) / G.dz ≤ (2 * mE) / G.dz := by gcongr; linarith
    have p : 0 ≤ 4 / G.dr * mE := by positivity
    calc _ ≤ (2 * mE) / G.dz := this
      _ ≤ _ := by rw [add_mul]; have : (2 * mE) / G.dz = 2 / G.dz * mE := by ring
                  linarith
  · have h1 := hx.elec .ephi (i + 1) k (by simp) (by simp only [Box]; omega)
    have h2 := hx.elec .ephi i k (by simp) (by simp only [Box]; omega)
    have i0 : (0:ℝ) ≤ i := by exact_mod_cast hn.1
    have d : G.dr ≤ 2 * G.dr * ((i:ℝ) + 0.5) := by norm_num; nlinarith
    have a0 : 0 ≤ |x .ephi (i + 1) k| + |x .ephi i k| := by positivity
    have b1 : (|x .ephi (i + 1) k| + |x .ephi i k|) / (2 * G.dr * ((i:ℝ) + 0.5)) ≤ (2 * mE) / G.dr :=
      (div_le_div_of_nonneg_left a0 dr d).trans (by gcongr; linarith)
    have b2 : (|x .ephi (i + 1) k| + |x .ephi i k|) / G.dr ≤ (2 * mE) / G.dr := by gcongr; linarith
    have p : 0 ≤ 2 / G.dz * mE := by positivity
    have e : 4 / G.dr * mE = (2 * mE) / G.dr + (2 * mE) / G.dr := by ring
    rw [add_mul]
    linarith

/-- a rounded step changes a value of the magnetic field by the exact change and `roundH` at most -/
theorem FieldStepR.magn_err {G : Geom} (hG : G.Valid) {dt mE mH : ℝ} (hdt : 0 < dt) {j x x' : Fields} (h : FieldStepR G dt j x x')
    (hx : Within G mE mH x) {a : Arr} {i k : ℤ} (ha : a = .hr ∨ a = .hz) (hb : Box 0 G.nr 0 G.nz i k) :
    |x' a i k - hStep G dt x a i k| ≤ roundH G dt mE mH := by
  have hm := MAGN_CONST_pos
  have hE := EPS_pos
  have hT := ETA_pos
  have dr := hG.dr_pos
  have dz := hG.dz_pos
  have n1 := hG.nr_ge
  have n2 := hG.nz_ge
  have e0 : 0 ≤ mE := (abs_nonneg _).trans (hx.elec .er 0 0 (by simp) (by simp only [Box]; omega))
  have h0 : 0 ≤ mH := (abs_nonneg _).trans (hx.magn .hr 0 0 (by simp) (by simp only [Box]; omega))
  by_cases hn : HNode G a i k
  · refine (h.mag a i k hn).bound ?_
    have s1 := hx.magn a i k (by tauto) hb
    have s2 := mul_le_mul_of_nonneg_left (sizeE_within hG hx ha hn) (by positivity : 0 ≤ dt / MAGN_CONST)
    linarith
  · rw [h.still a i k (by tauto) hn]
    have : hStep G dt x a i k = x a i k := by
      rcases ha with rfl | rfl <;> simp only [HNode] at hn <;> simp only [hStep] <;> rw [if_neg hn]
    rw [this, sub_self, abs_zero]
    unfold roundH
    exact add_nonneg (mul_nonneg hE.le (by positivity)) hT.le

theorem divH_err {G : Geom} (hG : G.Valid) {x y : Fields} {δ : ℝ} {i k : ℤ} (hi : 0 ≤ i)
    (h1 : |x .hr (i + 1) k - y .hr (i + 1) k| ≤ δ) (h2 : |x .hr i k - y .hr i k| ≤ δ)
    (h3 : |x .hz i (k + 1) - y .hz i (k + 1)| ≤ δ) (h4 : |x .hz i k - y .hz i k| ≤ δ) :
    |divH G x i k - divH G y i k| ≤ (2 / G.dr + 2 / G.dz) * δ := by
  have dr := hG.dr_pos
  have dz := hG.dz_pos
  have i0 : (0:ℝ) ≤ i := by exact_mod_cast hi
  obtain ⟨r, hr⟩ : ∃ r : ℝ, r = i := ⟨_, rfl⟩
  have e : divH G x i k - divH G y i k =
      ((i:ℝ) + 1) / (((i:ℝ) + 1 / 2) * G.dr) * (x .hr (i + 1) k - y .hr (i + 1) k)
      + -((i:ℝ) / (((i:ℝ) + 1 / 2) * G.dr)) * (x .hr i k - y .hr i k)
      + (1 / G.dz * (x .hz i (k + 1) - y .hz i (k + 1)) + -(1 / G.dz) * (x .hz i k - y .hz i k)) := by
    unfold divH
    rw [← hr] at i0 ⊢
    field_simp
    ring
  have e' : (2 / G.dr + 2 / G.dz) * δ = ((i:ℝ) + 1) / (((i:ℝ) + 1 / 2) * G.dr) * δ + (i:ℝ) / (((i:ℝ) + 1 / 2) * G.dr) * δ
      + (1 / G.dz * δ + 1 / G.dz * δ) := by
    rw [← hr] at i0 ⊢
    field_simp
    ring
  rw [e, e']
  have p1 : 0 ≤ ((i:ℝ) + 1) / (((i:ℝ) + 1 / 2) * G.dr) := by positivity
  have p2 : 0 ≤ (i:ℝ) / (((i:ℝ) + 1 / 2) * G.dr) := by positivity
  have p3 : 0 ≤ 1 / G.dz := by positivity
  refine (abs_add_le _ _).trans (add_le_add ((abs_add_le _ _).trans (add_le_add ?_ ?_)) ((abs_add_le _ _).trans (add_le_add ?_ ?_)))
  · rw [abs_mul, abs_of_nonneg p1]; exact mul_le_mul_of_nonneg_left h1 p1
  · rw [abs_mul, abs_neg, abs_of_nonneg p2]; exact mul_le_mul_of_nonneg_left h2 p2
  · rw [abs_mul, abs_of_nonneg p3]; exact mul_le_mul_of_nonneg_left h3 p3
  · rw [abs_mul, abs_neg, abs_of_nonneg p3]; exact mul_le_mul_of_nonneg_left h4 p3

theorem divH_step {G : Geom} (hG : G.Valid) {dt mE mH : ℝ} (hdt : 0 < dt) {j x x' : Fields} (h : FieldStepR G dt j x x')
    (hw : WallE G x) (hx : Within G mE mH x) {i k : ℤ} (hi : 0 ≤ i) (hi' : i < G.nr - 1) (hk : 0 ≤ k) (hk' : k < G.nz - 1) :
    |divH G x' i k - divH G x i k| ≤ (2 / G.dr + 2 / G.dz) * roundH G dt mE mH := by
  rw [← divH_hStep hG dt x hw.phi_right hi hi' hk hk']
  apply divH_err hG hi <;> apply h.magn_err hG hdt hx (by simp) <;> simp only [Box] <;> omega

theorem walls_run {G : Geom} {dt : ℝ} {N : ℕ} {X j : ℕ → Fields} (hw : WallE G (X 0))
    (hX : ∀ n, n < N → FieldStepR G dt (j n) (X n) (X (n + 1))) : ∀ n, n ≤ N → WallE G (X n) := by
  intro n
  induction n with
  | zero => exact fun _ => hw
  | succ n ih => exact fun h => (hX n (by omega)).walls (ih (by omega))

/-- **C111.**  Whatever the currents, `N` rounded steps change the divergence of the magnetic field in a cell by `N` times the
rounding errors of one step at most: they do not grow. -/
theorem C111_divergence {G : Geom} (hG : G.Valid) {dt mE mH : ℝ} (hdt : 0 < dt) {N : ℕ} {X j : ℕ → Fields} (hw : WallE G (X 0))
    (hX : ∀ n, n < N → FieldStepR G dt (j n) (X n) (X (n + 1))) (hb : ∀ n, n < N → Within G mE mH (X n)) {i k : ℤ}
    (hi : 0 ≤ i) (hi' : i < G.nr - 1) (hk : 0 ≤ k) (hk' : k < G.nz - 1) :
    |divH G (X N) i k - divH G (X 0) i k| ≤ N * ((2 / G.dr + 2 / G.dz) * roundH G dt mE mH) := by
  have key : ∀ n, n ≤ N → |divH G (X n) i k - divH G (X 0) i k| ≤ n * ((2 / G.dr + 2 / G.dz) * roundH G dt mE mH) := by
    intro n
    induction n with
    | zero => intro _; simp
    | succ n ih =>
      intro h
      have a := ih (by omega)
      have b := divH_step hG hdt (hX n (by omega)) (walls_run hw hX n (by omega)) (hb n (by omega)) hi hi' hk hk'
      have e : divH G (X (n + 1)) i k - divH G (X 0) i k =
          (divH G (X (n + 1)) i k - divH G (X n) i k) + (divH G (X n) i k - divH G (X 0) i k) := by ring
      rw [e]
      refine (abs_add_le _ _).trans ?_
      push_cast
      linarith
  exact key N le_rfl

/-! ## Gauss's law -/

theorem sizeH_within {G : Geom} (hG : G.Valid) {mE mH : ℝ} {x : Fields} (hx : Within G mE mH x) {a : Arr} {i k : ℤ}
    (ha : a = .er ∨ a = .ez) (hn : ENode G a i k) : sizeH G x a i k ≤ (2 / G.dz + 4 / G.dr) * mH := by
  have dr := hG.dr_pos
  have dz := hG.dz_pos
  have n1 := hG.nr_ge
  have n2 := hG.nz_ge
  have m0 : 0 ≤ mH := (abs_nonneg _).trans (hx.magn .hr 0 0 (by simp) (by simp only [Box]; omega))
  have q1 : 0 ≤ 2 / G.dz * mH := by positivity
  have q2 : 0 ≤ 4 / G.dr * mH := by positivity
  rw [add_mul]
  rcases ha with rfl | rfl <;> simp only [ENode, Box] at hn <;> simp only [sizeH]
  · have h1 := hx.magn .hphi i k (by simp) (by simp only [Box]; omega)
    have h2 := hx.magn .hphi i (k - 1) (by simp) (by simp only [Box]; omega)
    have : (|x .hphi i k| + |x .hphi i (k - 1)|) / G.dz ≤ (2 * mH) / G.dz := by gcongr; linarith
    have e : (2 * mH) / G.dz = 2 / G.dz * mH := by ring
    linarith
  · have h1 := hx.magn .hphi i k (by simp) (by simp only [Box]; omega)
    split_ifs with h0
    · have := mul_le_mul_of_nonneg_left h1 (by positivity : 0 ≤ 4 / G.dr)
      linarith
    · have h2 := hx.magn .hphi (i - 1) k (by simp) (by simp only [Box]; omega)
      have i1 : (1:ℝ) ≤ i := by
        have : 1 ≤ i := by omega
        exact_mod_cast this
      have d : G.dr ≤ 2 * G.dr * (i:ℝ) := by nlinarith
      have a0 : 0 ≤ |x .hphi i k| + |x .hphi (i - 1) k| := by positivity
      have b1 : (|x .hphi i k| + |x .hphi (i - 1) k|) / (2 * G.dr * (i:ℝ)) ≤ (2 * mH) / G.dr :=
        (div_le_div_of_nonneg_left a0 dr d).trans (by gcongr; linarith)
      have b2 : (|x .hphi i k| + |x .hphi (i - 1) k|) / G.dr ≤ (2 * mH) / G.dr := by gcongr; linarith
      have e : 4 / G.dr * mH = (2 * mH) / G.dr + (2 * mH) / G.dr := by ring
      linarith

theorem FieldStepR.elec_err {G : Geom} (hG : G.Valid) {dt e mE mH mJ : ℝ} (hdt : 0 < dt) (he : 0 < e) {j x x' : Fields}
    (h : FieldStepR G dt j x x') (heps : ∀ i k, Box 0 G.nr 0 G.nz i k → x .eps i k = e)
    (hsig : ∀ i k, Box 0 G.nr 0 G.nz i k → x .sig i k = 0)
    (hx : Within G mE mH x) (hx' : Within G mE mH x') {a : Arr} {i k : ℤ} (ha : a = .er ∨ a = .ez) (hn : ENode G a i k)
    (hj : |currentOf j a i k| ≤ mJ) :
    |x' a i k - eStep G dt (midR j x x') a i k| ≤ roundE G dt e mE mH mJ := by
  have h0 := EPSILON0_pos
  have hb := hn.box
  refine (h.elec a i k hn).bound ?_
  rw [heps i k hb, hsig i k hb, koefH_lossless he]
  have s1 := hx.elec a i k (by tauto) hb
  have s2 := mul_le_mul_of_nonneg_left (add_le_add hj (sizeH_within hG hx' ha hn)) (by positivity : 0 ≤ dt / (e * EPSILON0))
  linarith

theorem netOutflow_err {G : Geom} (hG : G.Valid) {jr jz jr' jz' : Grid} {δ : ℝ} {a b : ℤ} (ha : 0 ≤ a)
    (h1 : |jr a b - jr' a b| ≤ δ) (h2 : 0 < a → |jr (a - 1) b - jr' (a - 1) b| ≤ δ)
    (h3 : |jz a b - jz' a b| ≤ δ) (h4 : |jz a (b - 1) - jz' a (b - 1)| ≤ δ) :
    |netOutflow G jr jz a b - netOutflow G jr' jz' a b| ≤ surface G a * δ := by
  have dr := hG.dr_pos
  have dz := hG.dz_pos
  have hpi := PI_pos
  have v0 := nodeVolume_pos G hG ha
  obtain ⟨A, hA⟩ : ∃ A, A = 2 * PI * (max 0 (((a : ℝ) + 1 / 2) * G.dr)) * G.dz := ⟨_, rfl⟩
  obtain ⟨B, hB⟩ : ∃ B, B = 2 * PI * (max 0 (((a : ℝ) - 1 / 2) * G.dr)) * G.dz := ⟨_, rfl⟩
  obtain ⟨C, hC⟩ : ∃ C, C = nodeVolume G a / G.dz := ⟨_, rfl⟩
  have A0 : 0 ≤ A := by rw [hA]; have := le_max_left 0 (((a : ℝ) + 1 / 2) * G.dr); positivity
  have B0 : 0 ≤ B := by rw [hB]; have := le_max_left 0 (((a : ℝ) - 1 / 2) * G.dr); positivity
  have C0 : 0 ≤ C := by rw [hC]; positivity
  have h2' : |B * (jr (a - 1) b - jr' (a - 1) b)| ≤ B * δ := by
    rcases eq_or_lt_of_le ha with h | h
    · have : B = 0 := by
        rw [hB, ← h, max_eq_left]
        · ring
        · push_cast; nlinarith
      rw [this]; simp
    · rw [abs_mul, abs_of_nonneg B0]; exact mul_le_mul_of_nonneg_left (h2 h) B0
  have e : netOutflow G jr jz a b - netOutflow G jr' jz' a b =
      A * (jr a b - jr' a b) + -(B * (jr (a - 1) b - jr' (a - 1) b)) +
        (C * (jz a b - jz' a b) + -(C * (jz a (b - 1) - jz' a (b - 1)))) := by
    unfold netOutflow
    rw [← hA, ← hB, ← hC]
    ring
  have e' : surface G a * δ = A * δ + B * δ + (C * δ + C * δ) := by
    unfold surface
    rw [← hA, ← hB, ← hC]
    ring
  rw [e, e']
  refine (abs_add_le _ _).trans (add_le_add ((abs_add_le _ _).trans (add_le_add ?_ ?_)) ((abs_add_le _ _).trans (add_le_add ?_ ?_)))
  · rw [abs_mul, abs_of_nonneg A0]; exact mul_le_mul_of_nonneg_left h1 A0
  · rw [abs_neg]; exact h2'
  · rw [abs_mul, abs_of_nonneg C0]; exact mul_le_mul_of_nonneg_left h3 C0
  · rw [abs_neg, abs_mul, abs_of_nonneg C0]; exact mul_le_mul_of_nonneg_left h4 C0

theorem surface_nonneg {G : Geom} (hG : G.Valid) {a : ℤ} (ha : 0 ≤ a) : 0 ≤ surface G a := by
  have dz := hG.dz_pos
  have hpi := PI_pos
  have v0 := nodeVolume_pos G hG ha
  have m1 := le_max_left 0 (((a : ℝ) + 1 / 2) * G.dr)
  have m2 := le_max_left 0 (((a : ℝ) - 1 / 2) * G.dr)
  unfold surface
  positivity

/-- How much charge of the control volume of the node `(a,b)` the currents of a step do not account for -/
noncomputable def unaccounted (G : Geom) (dt : ℝ) (rho rho' : Grid) (j : Fields) (a b : ℤ) : ℝ :=
  (rho' a b - rho a b) * nodeVolume G a + dt * netOutflow G (j .jr) (j .jz) a b

theorem gauss_step {G : Geom} (hG : G.Valid) {dt e mE mH mJ : ℝ} (hdt : 0 < dt) (he : 0 < e) {j x x' : Fields}
    (h : FieldStepR G dt j x x') (heps : ∀ i k, Box 0 G.nr 0 G.nz i k → x .eps i k = e)
    (hsig : ∀ i k, Box 0 G.nr 0 G.nz i k → x .sig i k = 0)
    (hx : Within G mE mH x) (hx' : Within G mE mH x')
    (hj : ∀ i k, Box 0 G.nr 0 G.nz i k → |j .jr i k| ≤ mJ ∧ |j .jz i k| ≤ mJ) (rho rho' : Grid) {a b : ℤ}
    (ha : 0 ≤ a) (ha' : a < G.nr - 1) (hb : 1 ≤ b) (hb' : b < G.nz - 1) :
    |gaussDefect G e x' rho' a b - gaussDefect G e x rho a b| ≤
      |unaccounted G dt rho rho' j a b| + e * EPSILON0 * surface G a * roundE G dt e mE mH mJ := by
  have h0 := EPSILON0_pos
  have hE := EPS_pos
  have hT := ETA_pos
  have dr := hG.dr_pos
  have dz := hG.dz_pos
  have n1 := hG.nr_ge
  have n2 := hG.nz_ge
  have v0 := nodeVolume_pos G hG ha
  have e0 : 0 ≤ mE := (abs_nonneg _).trans (hx.elec .er 0 0 (by simp) (by simp only [Box]; omega))
  have m0 : 0 ≤ mH := (abs_nonneg _).trans (hx.magn .hr 0 0 (by simp) (by simp only [Box]; omega))
  have j0 : 0 ≤ mJ := (abs_nonneg _).trans (hj 0 0 (by simp only [Box]; omega)).1
  have δ0 : 0 ≤ roundE G dt e mE mH mJ := by
    unfold roundE
    exact add_nonneg (mul_nonneg hE.le (by positivity)) hT.le
  obtain ⟨κ, hκ⟩ : ∃ κ, κ = unaccounted G dt rho rho' j a b := ⟨_, rfl⟩
  -- the charge the currents account for
  have g := gauss_eStep hG dt he (midR j x x') rho (fun i k => rho' i k - κ / nodeVolume G i) ha ha' hb hb' heps hsig (by
    have : (rho' a b - κ / nodeVolume G a - rho a b) * nodeVolume G a = (rho' a b - rho a b) * nodeVolume G a - κ := by
      have c : κ / nodeVolume G a * nodeVolume G a = κ := div_mul_cancel₀ _ v0.ne'
      linear_combination -c
    rw [this, hκ]
    unfold unaccounted
    simp only [midR]
    ring)
  have g1 : gaussDefect G e (midR j x x') rho a b = gaussDefect G e x rho a b := rfl
  have r1 := h.elec_err hG hdt he heps hsig hx hx' (a := .er) (i := a) (k := b) (by simp) (by simp only [ENode, Box]; omega)
    (hj a b (by simp only [Box]; omega)).1
  have r2 : 0 < a → _ := fun p => h.elec_err hG hdt he heps hsig hx hx' (a := .er) (i := a - 1) (k := b) (by simp)
    (by simp only [ENode, Box]; omega) (hj (a - 1) b (by simp only [Box]; omega)).1
  have r3 := h.elec_err hG hdt he heps hsig hx hx' (a := .ez) (i := a) (k := b) (by simp) (by simp only [ENode, Box]; omega)
    (hj a b (by simp only [Box]; omega)).2
  have r4 := h.elec_err hG hdt he heps hsig hx hx' (a := .ez) (i := a) (k := b - 1) (by simp) (by simp only [ENode, Box]; omega)
    (hj a (b - 1) (by simp only [Box]; omega)).2
  have f := netOutflow_err hG ha r1 r2 r3 r4
  rw [g1] at g
  have e1 : gaussDefect G e x' rho' a b - gaussDefect G e x rho a b =
      -κ + e * EPSILON0 * (netOutflow G (x' .er) (x' .ez) a b -
        netOutflow G (eStep G dt (midR j x x') .er) (eStep G dt (midR j x x') .ez) a b) := by
    rw [← g]
    unfold gaussDefect
    simp only
    have : κ / nodeVolume G a * nodeVolume G a = κ := div_mul_cancel₀ _ v0.ne'
    linear_combination -this
  rw [e1]
  refine (abs_add_le _ _).trans (add_le_add (by rw [abs_neg, hκ]) ?_)
  have p : 0 ≤ e * EPSILON0 := by positivity
  rw [abs_mul, abs_of_nonneg p, mul_assoc (e * EPSILON0)]
  exact mul_le_mul_of_nonneg_left f p

theorem medium_run {G : Geom} {dt : ℝ} {N : ℕ} {X j : ℕ → Fields}
    (hX : ∀ n, n < N → FieldStepR G dt (j n) (X n) (X (n + 1))) : ∀ n, n ≤ N → X n .eps = X 0 .eps ∧ X n .sig = X 0 .sig := by
  intro n
  induction n with
  | zero => exact fun _ => ⟨rfl, rfl⟩
  | succ n ih =>
    intro h
    obtain ⟨a, b⟩ := ih (by omega)
    obtain ⟨c, d⟩ := (hX n (by omega)).medium
    exact ⟨c.trans a, d.trans b⟩

/-- **C111.**  In a uniform medium without losses, `N` rounded steps change the defect of Gauss's law at a node by the charge the
currents do not account for and `N` times the rounding errors of one step at most. -/
theorem C111_gauss {G : Geom} (hG : G.Valid) {dt e mE mH mJ : ℝ} (hdt : 0 < dt) (he : 0 < e) {N : ℕ} {X j : ℕ → Fields}
    (heps : ∀ i k, Box 0 G.nr 0 G.nz i k → X 0 .eps i k = e) (hsig : ∀ i k, Box 0 G.nr 0 G.nz i k → X 0 .sig i k = 0)
    (hX : ∀ n, n < N → FieldStepR G dt (j n) (X n) (X (n + 1))) (hb : ∀ n, n ≤ N → Within G mE mH (X n))
    (hj : ∀ n, n < N → ∀ i k, Box 0 G.nr 0 G.nz i k → |j n .jr i k| ≤ mJ ∧ |j n .jz i k| ≤ mJ) (rho : ℕ → Grid) {a b : ℤ}
    (ha : 0 ≤ a) (ha' : a < G.nr - 1) (hb1 : 1 ≤ b) (hb2 : b < G.nz - 1) :
    |gaussDefect G e (X N) (rho N) a b - gaussDefect G e (X 0) (rho 0) a b| ≤
      (∑ n ∈ Finset.range N, |unaccounted G dt (rho n) (rho (n + 1)) (j n) a b|) +
        N * (e * EPSILON0 * surface G a * roundE G dt e mE mH mJ) := by
  have key : ∀ n, n ≤ N → |gaussDefect G e (X n) (rho n) a b - gaussDefect G e (X 0) (rho 0) a b| ≤
      (∑ m ∈ Finset.range n, |unaccounted G dt (rho m) (rho (m + 1)) (j m) a b|) +
        n * (e * EPSILON0 * surface G a * roundE G dt e mE mH mJ) := by
    intro n
    induction n with
    | zero => intro _; simp
    | succ n ih =>
      intro h
      have p := ih (by omega)
      obtain ⟨m1, m2⟩ := medium_run hX n (by omega)
      have q := gauss_step hG hdt he (hX n (by omega)) (by rw [m1]; exact heps) (by rw [m2]; exact hsig) (hb n (by omega))
        (hb (n + 1) (by omega)) (hj n (by omega)) (rho n) (rho (n + 1)) ha ha' hb1 hb2
      have e1 : gaussDefect G e (X (n + 1)) (rho (n + 1)) a b - gaussDefect G e (X 0) (rho 0) a b =
          (gaussDefect G e (X (n + 1)) (rho (n + 1)) a b - gaussDefect G e (X n) (rho n) a b) +
            (gaussDefect G e (X n) (rho n) a b - gaussDefect G e (X 0) (rho 0) a b) := by ring
      rw [e1, Finset.sum_range_succ]
      refine (abs_add_le _ _).trans ?_
      push_cast
      linarith
  exact key N le_rfl

/-! ## IEEE arithmetic -/

theorem fieldsF_step {G : Geom} (hG : G.Valid) {dt : ℝ} {x : Fields} (hM : Moderate G dt (x .eps) (x .sig)) (j : ℕ → Fields) (n : ℕ) :
    FieldStepR G dt (j n) (fieldsF G dt j x n) (fieldsF G dt j x (n + 1)) := by
  obtain ⟨h1, h2⟩ := fieldsF_medium G dt j x n
  refine fStepF_rounded hG ?_
  rw [h1, h2]
  exact hM

theorem Moderate.dt_pos {G : Geom} {dt : ℝ} {ep sg : Grid} (hM : Moderate G dt ep sg) : 0 < dt := by
  have h := hM.dt.1
  have : (0:ℝ) < 1 / 2 ^ 60 := by positivity
  linarith

/-- **C111.**  The program in IEEE arithmetic started with no magnetic field: after `N` steps the divergence of the magnetic field is
at most `N` times the rounding errors of one step. -/
theorem C111_ieee_divergence {G : Geom} (hG : G.Valid) {dt mE mH : ℝ} {N : ℕ} {x : Fields} {j : ℕ → Fields} (hw : WallE G x)
    (hM : Moderate G dt (x .eps) (x .sig)) (h0 : ∀ i k, x .hr i k = 0 ∧ x .hz i k = 0)
    (hb : ∀ n, n < N → Within G mE mH (fieldsF G dt j x n)) {i k : ℤ}
    (hi : 0 ≤ i) (hi' : i < G.nr - 1) (hk : 0 ≤ k) (hk' : k < G.nz - 1) :
    |divH G (fieldsF G dt j x N) i k| ≤ N * ((2 / G.dr + 2 / G.dz) * roundH G dt mE mH) := by
  have h := C111_divergence hG hM.dt_pos (X := fieldsF G dt j x) (j := j) hw (fun n _ => fieldsF_step hG hM j n) hb hi hi' hk hk'
  have e : divH G (fieldsF G dt j x 0) i k = 0 := by
    unfold divH fieldsF
    simp [(h0 _ _).1, (h0 _ _).2]
  rw [e, sub_zero] at h
  exact h

/-- **C111.**  The program in IEEE arithmetic, with the currents summed up in IEEE arithmetic in any order: `order n` is the order in
which the calls of the step `n` are served, at most `L` calls are made in a step and no node gets more than `mJ` in absolute values.
If the calls account for the motion of the charge, Gauss's law is spoilt by rounding errors alone, and these add up at most. -/
theorem C111_ieee_gauss {G : Geom} (hG : G.Valid) {dt e mE mH mJ : ℝ} (he : 0 < e) {calls order : ℕ → List JCall} {L N : ℕ}
    (hL : L ≤ 2 ^ 48) {x : Fields} (hM : Moderate G dt (x .eps) (x .sig))
    (heps : ∀ i k, Box 0 G.nr 0 G.nz i k → x .eps i k = e) (hsig : ∀ i k, Box 0 G.nr 0 G.nz i k → x .sig i k = 0)
    (hb : ∀ n, n ≤ N → Within G mE mH (fieldsF G dt (fun n => depositF (order n)) x n))
    (hcL : ∀ n, n < N → (calls n).length ≤ L) (ho : ∀ n, n < N → (order n).Perm (calls n))
    (hj : ∀ n, n < N → ∀ i k, Box 0 G.nr 0 G.nz i k → callSize (calls n) .jr i k ≤ mJ ∧ callSize (calls n) .jz i k ≤ mJ)
    {rho : ℕ → Grid}
    (hc : ∀ n, n < N → Continuity G dt (rho n) (rho (n + 1)) (callSum (calls n) .jr) (callSum (calls n) .jz)) {a b : ℤ}
    (ha : 0 ≤ a) (ha' : a < G.nr - 1) (hb1 : 1 ≤ b) (hb2 : b < G.nz - 1) :
    |gaussDefect G e (fieldsF G dt (fun n => depositF (order n)) x N) (rho N) a b - gaussDefect G e x (rho 0) a b| ≤
      N * (surface G a * (dt * (L * (EPS * mJ + ETA)) + e * EPSILON0 * roundE G dt e mE mH (2 * mJ + 1))) := by
  have hdt := hM.dt_pos
  have E0 := EPS_pos
  have T0 := ETA_pos
  have t0 := TT_pos
  have u0 := UU_pos
  have L0 : (0:ℝ) ≤ L := Nat.cast_nonneg _
  have L1 : (L:ℝ) ≤ 2 ^ 48 := by exact_mod_cast hL
  have eU : UU = EPS / 32 := by unfold UU EPS; norm_num
  have E1 : 2 ^ 48 * EPS = 1 := by unfold EPS; norm_num
  have tT : 2 * TT ≤ ETA := by
    unfold TT ETA
    rw [mul_one_div, div_le_div_iff₀ (by positivity) (by positivity), one_mul]
    calc (2:ℝ) * 2 ^ 500 = 2 ^ 501 := (pow_succ' 2 500).symm
      _ ≤ _ := pow_le_pow_right₀ (by norm_num) (by norm_num)
  have T1 : 2 ^ 48 * ETA ≤ 1 := by
    unfold ETA
    rw [mul_one_div, div_le_one (by positivity)]
    exact pow_le_pow_right₀ (by norm_num) (by norm_num)
  have err : ∀ n, n < N → ∀ (c : Arr) (i k : ℤ), callSize (calls n) c i k ≤ mJ →
      |depositF (order n) c i k - callSum (calls n) c i k| ≤ L * (EPS * mJ + ETA) := by
    intro n hn c i k hm
    have p := ho n hn
    have len : ((order n).length : ℝ) ≤ L := by
      rw [p.length_eq]; exact_mod_cast hcL n hn
    have l0 : (0:ℝ) ≤ (order n).length := Nat.cast_nonneg _
    have h := depositF_err (order n) (by rw [eU]; nlinarith) c i k
    rw [callSize_perm p, show callSum (order n) c i k = callSum (calls n) c i k from (p.map _).sum_eq] at h
    refine h.trans ?_
    have s0 := callSize_nonneg (calls n) c i k
    obtain ⟨l, hl⟩ : ∃ l : ℝ, l = (order n).length := ⟨_, rfl⟩
    rw [← hl] at len l0 ⊢
    have q1 : 2 * l * UU * callSize (calls n) c i k ≤ L * (EPS * mJ) := by
      rw [eU]
      have m0 : 0 ≤ mJ := s0.trans hm
      have : l * callSize (calls n) c i k ≤ L * mJ := mul_le_mul len hm s0 L0
      have := mul_le_mul_of_nonneg_left this E0.le
      have : 0 ≤ EPS * (L * mJ) := by positivity
      nlinarith
    have q2 : 2 * l * TT ≤ L * ETA := by
      have : l * (2 * TT) ≤ L * ETA := mul_le_mul len tT (by linarith only [t0]) L0
      linarith
    linarith
  have big : ∀ n, n < N → ∀ (c : Arr) (i k : ℤ), callSize (calls n) c i k ≤ mJ → |depositF (order n) c i k| ≤ 2 * mJ + 1 := by
    intro n hn c i k hm
    have h := err n hn c i k hm
    have s := callSum_abs (calls n) c i k
    have m0 : 0 ≤ mJ := (callSize_nonneg (calls n) c i k).trans hm
    have q : L * (EPS * mJ + ETA) ≤ mJ + 1 := by
      have := mul_le_mul_of_nonneg_right L1 (add_nonneg (mul_nonneg E0.le m0) T0.le)
      nlinarith only [this, E1, T1, m0]
    have e1 : depositF (order n) c i k = (depositF (order n) c i k - callSum (calls n) c i k) + callSum (calls n) c i k := by ring
    rw [e1]
    refine (abs_add_le _ _).trans ?_
    linarith
  have h := C111_gauss hG hdt he (X := fieldsF G dt (fun n => depositF (order n)) x) (j := fun n => depositF (order n)) (mJ := 2 * mJ + 1)
    heps hsig (fun n _ => fieldsF_step hG hM (fun n => depositF (order n)) n) hb
    (fun n hn i k hB => ⟨big n hn .jr i k (hj n hn i k hB).1, big n hn .jz i k (hj n hn i k hB).2⟩) rho ha ha' hb1 hb2
  refine h.trans ?_
  have S0 := surface_nonneg hG ha
  have each : ∀ n ∈ Finset.range N, |unaccounted G dt (rho n) (rho (n + 1)) (depositF (order n)) a b| ≤
      surface G a * (dt * (L * (EPS * mJ + ETA))) := by
    intro n hn
    have hn := Finset.mem_range.1 hn
    have m0 : 0 ≤ mJ := (callSize_nonneg (calls n) .jr a b).trans (hj n hn a b (by simp only [Box]; omega)).1
    have f := netOutflow_err hG (jr := depositF (order n) .jr) (jz := depositF (order n) .jz) (jr' := callSum (calls n) .jr)
      (jz' := callSum (calls n) .jz) (δ := L * (EPS * mJ + ETA)) ha
      (err n hn .jr a b (hj n hn a b (by simp only [Box]; omega)).1)
      (fun _ => err n hn .jr (a - 1) b (hj n hn (a - 1) b (by simp only [Box]; omega)).1)
      (err n hn .jz a b (hj n hn a b (by simp only [Box]; omega)).2)
      (err n hn .jz a (b - 1) (hj n hn a (b - 1) (by simp only [Box]; omega)).2)
    have c := hc n hn a b ha
    have e1 : unaccounted G dt (rho n) (rho (n + 1)) (depositF (order n)) a b =
        dt * (netOutflow G (depositF (order n) .jr) (depositF (order n) .jz) a b -
          netOutflow G (callSum (calls n) .jr) (callSum (calls n) .jz) a b) := by
      unfold unaccounted
      linear_combination c
    rw [e1, abs_mul, abs_of_pos hdt]
    have := mul_le_mul_of_nonneg_left f hdt.le
    linarith
  have s := Finset.sum_le_sum each
  rw [Finset.sum_const, Finset.card_range, nsmul_eq_mul] at s
  linarith

/-! ## The hypotheses are met -/

/-- every run is bounded by something -/
theorem within_exists (G : Geom) (X : ℕ → Fields) (N : ℕ) : ∃ m, ∀ n, n ≤ N → Within G m m (X n) := by
  obtain ⟨m, hm⟩ := Finset.exists_le ((Finset.range (N + 1) ×ˢ (({.er, .ephi, .ez, .hr, .hphi, .hz} : Finset Arr) ×ˢ
    (Finset.Ico (0 : ℤ) G.nr ×ˢ Finset.Ico (0 : ℤ) G.nz))).image (fun p => |X p.1 p.2.1 p.2.2.1 p.2.2.2|))
  refine ⟨m, fun n hn => ⟨fun a i k ha hb => hm _ ?_, fun a i k ha hb => hm _ ?_⟩⟩ <;>
  · simp only [Box] at hb
    refine Finset.mem_image.2 ⟨(n, a, i, k), ?_, rfl⟩
    simp only [Finset.mem_product, Finset.mem_range, Finset.mem_insert, Finset.mem_singleton, Finset.mem_Ico]
    refine ⟨by omega, by tauto, by omega, by omega⟩

/-- charge that fits any currents -/
noncomputable def fitting (G : Geom) (dt : ℝ) (l : List JCall) (n : ℕ) : Grid := fun a b =>
  -(n * dt * netOutflow G (callSum l .jr) (callSum l .jz) a b / nodeVolume G a)

/-- C111: a million steps of `coarseMem` with a current that is not a binary fraction -/
example : ∃ m, |gaussDefect coarseGeom 1 (fieldsF coarseGeom (coarseDt / 2)
      (fun _ => depositF [⟨.jz, 1, 1, -1 / 7⟩, ⟨.jr, 1, 1, 1 / 3⟩]) (fieldsOf coarseMem) 1000000)
      (fitting coarseGeom (coarseDt / 2) [⟨.jr, 1, 1, 1 / 3⟩, ⟨.jz, 1, 1, -1 / 7⟩] 1000000) 1 1 -
      gaussDefect coarseGeom 1 (fieldsOf coarseMem) (fitting coarseGeom (coarseDt / 2) [⟨.jr, 1, 1, 1 / 3⟩, ⟨.jz, 1, 1, -1 / 7⟩] 0) 1 1| ≤
    (1000000 : ℕ) * (surface coarseGeom 1 * (coarseDt / 2 * ((2 : ℕ) * (EPS * 1 + ETA)) +
      1 * EPSILON0 * roundE coarseGeom (coarseDt / 2) 1 m m (2 * 1 + 1))) := by
  obtain ⟨m, hm⟩ := within_exists coarseGeom (fieldsF coarseGeom (coarseDt / 2)
    (fun _ => depositF [⟨.jz, 1, 1, -1 / 7⟩, ⟨.jr, 1, 1, 1 / 3⟩]) (fieldsOf coarseMem)) 1000000
  refine ⟨m, C111_ieee_gauss coarseGeom_valid one_pos (calls := fun _ => [⟨.jr, 1, 1, 1 / 3⟩, ⟨.jz, 1, 1, -1 / 7⟩])
    (order := fun _ => [⟨.jz, 1, 1, -1 / 7⟩, ⟨.jr, 1, 1, 1 / 3⟩]) (L := 2) (by norm_num) coarse_moderate (fun _ _ _ => rfl)
    (fun _ _ _ => rfl) hm (fun _ _ => le_rfl) (fun _ _ => List.Perm.swap _ _ _) ?_ (rho := fitting _ _ _) ?_
    (by norm_num) (by norm_num [coarseGeom]) (by norm_num) (by norm_num [coarseGeom])⟩
  · intro n _ i k _
    simp only [callSize, List.map_cons, List.map_nil, List.sum_cons, List.sum_nil]
    constructor <;> (split_ifs <;> norm_num [abs_of_pos, abs_of_neg])
  · intro n _ a b ha
    have v := nodeVolume_pos coarseGeom coarseGeom_valid ha
    unfold fitting
    push_cast
    field_simp
    ring

/-- C111: the magnetic field of the same run has almost no sources -/
example : ∃ m, ∀ i k : ℤ, 0 ≤ i → i < coarseGeom.nr - 1 → 0 ≤ k → k < coarseGeom.nz - 1 →
    |divH coarseGeom (fieldsF coarseGeom (coarseDt / 2)
      (fun _ => depositF [⟨.jz, 1, 1, -1 / 7⟩, ⟨.jr, 1, 1, 1 / 3⟩]) (setupFields (fun _ _ => 0)) 1000000) i k| ≤
    (1000000 : ℕ) * ((2 / coarseGeom.dr + 2 / coarseGeom.dz) * roundH coarseGeom (coarseDt / 2) m m) := by
  obtain ⟨m, hm⟩ := within_exists coarseGeom (fieldsF coarseGeom (coarseDt / 2)
    (fun _ => depositF [⟨.jz, 1, 1, -1 / 7⟩, ⟨.jr, 1, 1, 1 / 3⟩]) (setupFields (fun _ _ => 0))) 1000000
  refine ⟨m, fun i k h1 h2 h3 h4 => C111_ieee_divergence coarseGeom_valid (WallE.setup _ _) coarse_moderate (fun _ _ => ⟨rfl, rfl⟩)
    (fun n hn => hm n hn.le) h1 h2 h3 h4⟩

end Verif
