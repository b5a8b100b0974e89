import Verif.Rounded

/-!
# Macroparticles and indices stay in the grid with the arithmetic of the machine (C101)
-/

namespace Verif

/-- A grid the machine can hold: at least three nodes, their number an `int`, distances far from underflow -/
structure GridR.Ok (g : GridR) : Prop where
  n_ge : 3 ≤ g.n
  n_lt : g.n < 2 ^ 31
  size_pos : 0 < g.size
  d_ge : 1 / 2 ^ 400 ≤ g.d
  made : g.Made

namespace GridR

variable {g : GridR}

theorem Ok.d_pos (h : g.Ok) : 0 < g.d := lt_of_lt_of_le (by positivity) h.d_ge

theorem Ok.cells (h : g.Ok) : (2 : ℝ) ≤ (g.n : ℝ) - 1 ∧ (g.n : ℝ) - 1 ≤ 2 ^ 31 := by
  have h1 : (3 : ℝ) ≤ g.n := by exact_mod_cast h.n_ge
  have h2 : (g.n : ℝ) ≤ 2 ^ 31 := by exact_mod_cast h.n_lt.le
  exact ⟨by linarith, by linarith⟩

theorem Ok.eta (h : g.Ok) : ETA ≤ g.d / 2 ^ 100 := by
  have := h.d_ge
  unfold ETA
  calc (1 : ℝ) / 2 ^ 500 = 1 / 2 ^ 400 / 2 ^ 100 := by rw [div_div, ← pow_add]
    _ ≤ g.d / 2 ^ 100 := by gcongr

/-- The length is a whole number of cells but for rounding. -/
theorem Ok.size_near (h : g.Ok) : |g.size - ((g.n : ℝ) - 1) * g.d| ≤ g.d / 50000 := by
  obtain ⟨h1, h2⟩ := h.cells
  have h3 := h.made
  have he := h.eta
  have hd := h.d_pos
  obtain ⟨N, hN⟩ : ∃ N, N = (g.n : ℝ) - 1 := ⟨_, rfl⟩
  obtain ⟨D, hD⟩ : ∃ D, D = g.size / N := ⟨_, rfl⟩
  unfold Made RoundsTo at h3
  rw [← hN] at h1 h2 h3 ⊢
  rw [← hD] at h3
  have hN0 : 0 < N := by linarith
  have hs : g.size = N * D := by rw [hD]; field_simp
  have hD0 : 0 < D := by rw [hD]; exact div_pos h.size_pos hN0
  have a := abs_le.1 h3
  have b : D ≤ 2 * g.d := by
    have := a.1
    unfold EPS at this
    norm_num at this he
    linarith
  have c : |D - g.d| ≤ g.d / 2 ^ 47 + g.d / 2 ^ 100 := by
    rw [abs_sub_comm]
    refine h3.trans ?_
    unfold EPS
    norm_num
    norm_num at he
    linarith
  rw [hs, ← mul_sub, abs_mul, abs_of_pos hN0]
  calc N * |D - g.d| ≤ 2 ^ 31 * (g.d / 2 ^ 47 + g.d / 2 ^ 100) := by gcongr
    _ ≤ g.d / 50000 := by norm_num; linarith

theorem Ok.size_ge (h : g.Ok) : 1.999 * g.d ≤ g.size := by
  have h1 := abs_le.1 h.size_near
  have h2 := h.cells.1
  have := h.d_pos
  nlinarith [h1.1]

theorem Ok.size_le (h : g.Ok) : g.size ≤ 2 ^ 32 * g.d := by
  have h1 := abs_le.1 h.size_near
  have h2 := h.cells.2
  have := h.d_pos
  nlinarith [h1.2]

/-- Values computed from terms of up to ten times the length are right up to a ten thousandth of a cell. -/
theorem Ok.near (h : g.Ok) {m x y : ℝ} (hm : m ≤ 10 * g.size) (hr : RoundsTo m x y) : |y - x| ≤ g.d / 5000 := by
  refine hr.trans ?_
  have h1 := h.size_le
  have h2 := h.eta
  have hd := h.d_pos
  unfold EPS
  norm_num at h1 h2 ⊢
  linarith

end GridR

/-! ## The velocity -/

/-- Whatever the momentum, the computed velocity exceeds that of light by a millionth at most. -/
theorem velocity_bound {u v : V3} (h : VelocityR u v) :
    v.c0 ^ 2 + v.c1 ^ 2 + v.c2 ^ 2 ≤ (1.000001 * LIGHT_SPEED) ^ 2 := by
  obtain ⟨s, γ, hs, hγ, h0, h1, h2⟩ := h
  obtain ⟨c, hc⟩ : ∃ c, c = LIGHT_SPEED := ⟨_, rfl⟩
  obtain ⟨S, hS⟩ : ∃ S, S = u.sq := ⟨_, rfl⟩
  have hSe : S = u.c0 ^ 2 + u.c1 ^ 2 + u.c2 ^ 2 := by rw [hS, V3.sq]; ring
  have hS0 : 0 ≤ S := by rw [hSe]; positivity
  have hc8 : c = 3 * 10 ^ 8 := by rw [hc]; norm_num [LIGHT_SPEED]
  have hc0 : 0 < c := by rw [hc8]; norm_num
  rw [← hS] at hs
  rw [← hc] at hγ ⊢
  have eta0 : 0 < ETA := by unfold ETA; positivity
  have eta1 : ETA ≤ 1 / 2 ^ 100 := by
    unfold ETA
    exact one_div_le_one_div_of_le (by positivity) (pow_le_pow_right₀ (by norm_num) (by norm_num))
  obtain ⟨η, hη⟩ : ∃ η, η = ETA := ⟨_, rfl⟩
  obtain ⟨ε, hε⟩ : ∃ ε, ε = EPS := ⟨_, rfl⟩
  unfold RoundsTo at hs h0 h1 h2
  rw [← hη] at eta0 eta1 hs h0 h1 h2
  rw [← hε] at hs hγ h0 h1 h2
  have he : ε = 1 / 2 ^ 48 := by rw [hε, EPS]
  have he0 : 0 < ε := by rw [he]; positivity
  have hs1 : (1 - ε) * S - η ≤ s := by linarith [(abs_le.1 hs).1]
  -- the factor
  obtain ⟨P, hP⟩ : ∃ P, P = 1 + s / c ^ 2 := ⟨_, rfl⟩
  have hPc : (1 - ε) * S ≤ P * c ^ 2 := by
    have : P * c ^ 2 = c ^ 2 + s := by rw [hP]; field_simp
    rw [this]
    have : η ≤ c ^ 2 := by rw [hc8]; norm_num at eta1 ⊢; linarith
    linarith
  have hP0 : 0 < P := by
    have : 0 < P * c ^ 2 := by
      have : P * c ^ 2 = c ^ 2 + s := by rw [hP]; field_simp
      rw [this]
      have h3 : η < c ^ 2 := by rw [hc8]; norm_num at eta1 ⊢; linarith
      have h4 : 0 ≤ (1 - ε) * S := mul_nonneg (by rw [he]; norm_num) hS0
      linarith
    exact (mul_pos_iff_of_pos_right (by positivity)).1 this
  rw [← hP] at hγ
  obtain ⟨f, hf⟩ : ∃ f, f = 1 / √P := ⟨_, rfl⟩
  rw [← hf] at hγ
  have hf0 : 0 < f := by rw [hf]; positivity
  have hf2 : f ^ 2 * P = 1 := by
    rw [hf, div_pow, Real.sq_sqrt hP0.le]
    field_simp
  have hγ1 : |γ| ≤ (1 + ε) * f := by
    have h3 := abs_le.1 hγ
    rw [abs_le]
    constructor
    · have : ε * f ≤ f := by rw [he]; norm_num; linarith
      nlinarith [h3.1]
    · linarith [h3.2]
  have hfS : f ^ 2 * S ≤ 1.0000000001 * c ^ 2 := by
    have h3 : f ^ 2 * ((1 - ε) * S) ≤ f ^ 2 * (P * c ^ 2) := by gcongr
    have h4 : f ^ 2 * (P * c ^ 2) = c ^ 2 := by rw [← mul_assoc, hf2, one_mul]
    have h5 : (1 - ε) * (f ^ 2 * S) ≤ c ^ 2 := by linarith
    have h6 : 0 ≤ f ^ 2 * S := by positivity
    rw [he] at h5
    norm_num at h5 ⊢
    linarith
  have hγS : ((1 + ε) * γ) ^ 2 * S ≤ 1.000000001 * c ^ 2 := by
    have h3 : γ ^ 2 ≤ ((1 + ε) * f) ^ 2 := by
      rw [← sq_abs]
      gcongr
    calc ((1 + ε) * γ) ^ 2 * S = (1 + ε) ^ 2 * (γ ^ 2 * S) := by ring
      _ ≤ (1 + ε) ^ 2 * (((1 + ε) * f) ^ 2 * S) := by gcongr
      _ = (1 + ε) ^ 4 * (f ^ 2 * S) := by ring
      _ ≤ (1 + ε) ^ 4 * (1.0000000001 * c ^ 2) := by gcongr
      _ ≤ 1.000000001 * c ^ 2 := by rw [he]; norm_num; nlinarith
  -- one component
  have comp : ∀ {a w : ℝ}, |w - a * γ| ≤ ε * |a * γ| + η → w ^ 2 ≤ ((1 + ε) * γ) ^ 2 * a ^ 2 + 5 * c * η ∨ c ^ 2 * 2 < ((1 + ε) * γ) ^ 2 * a ^ 2 := by
    intro a w hw
    by_cases hbig : c ^ 2 * 2 < ((1 + ε) * γ) ^ 2 * a ^ 2
    · exact Or.inr hbig
    left
    have h3 : |w| ≤ (1 + ε) * |a * γ| + η := by
      have := abs_sub_abs_le_abs_sub w (a * γ)
      linarith
    obtain ⟨A, hA⟩ : ∃ A, A = (1 + ε) * |a * γ| := ⟨_, rfl⟩
    have hA2 : A ^ 2 = ((1 + ε) * γ) ^ 2 * a ^ 2 := by rw [hA, mul_pow, sq_abs]; ring
    have hA0 : 0 ≤ A := by rw [hA]; positivity
    have hA1 : A ≤ 2 * c := by
      by_contra hcon
      push Not at hcon
      have : A ^ 2 ≤ c ^ 2 * 2 := by rw [hA2]; exact not_lt.1 hbig
      nlinarith
    rw [← hA] at h3
    have hcη : η ≤ c := by rw [hc8]; norm_num at eta1 ⊢; linarith
    calc w ^ 2 = |w| ^ 2 := (sq_abs w).symm
      _ ≤ (A + η) ^ 2 := by gcongr
      _ = A ^ 2 + (2 * A * η + η * η) := by ring
      _ ≤ A ^ 2 + (2 * (2 * c) * η + c * η) := by gcongr
      _ = ((1 + ε) * γ) ^ 2 * a ^ 2 + 5 * c * η := by rw [hA2]; ring
  have tot : ((1 + ε) * γ) ^ 2 * u.c0 ^ 2 + ((1 + ε) * γ) ^ 2 * u.c1 ^ 2 + ((1 + ε) * γ) ^ 2 * u.c2 ^ 2 ≤ 1.000000001 * c ^ 2 := by
    rw [hSe] at hγS
    linarith
  have n0 : 0 ≤ ((1 + ε) * γ) ^ 2 * u.c0 ^ 2 := by positivity
  have n1 : 0 ≤ ((1 + ε) * γ) ^ 2 * u.c1 ^ 2 := by positivity
  have n2 : 0 ≤ ((1 + ε) * γ) ^ 2 * u.c2 ^ 2 := by positivity
  have hc2 : 0 < c ^ 2 := by positivity
  have fin : 15 * c * η ≤ 1 := by rw [hc8]; norm_num at eta1 ⊢; linarith
  have hc2' : (9 : ℝ) * 10 ^ 16 = c ^ 2 := by rw [hc8]; norm_num
  rcases comp h0 with c0 | c0
  · rcases comp h1 with c1 | c1
    · rcases comp h2 with c2 | c2
      · rw [mul_pow]
        norm_num
        norm_num at tot
        linarith
      · norm_num at tot
        linarith
    · norm_num at tot
      linarith
  · norm_num at tot
    linarith

/-- The length of a half step -/
theorem half_length {g : GridR} (hg : g.Ok) {u v : V3} (hv : VelocityR u v) {dt h : ℝ} (hdt : 0 < dt)
    (hc : LIGHT_SPEED * dt ≤ 3 / 4 * g.d) (hh : RoundsTo |dt / 2| (dt / 2) h) :
    (v.c0 * h) ^ 2 + (v.c1 * h) ^ 2 ≤ (0.3751 * g.d) ^ 2 ∧ |v.c0 * h| ≤ 0.3751 * g.d ∧ |v.c1 * h| ≤ 0.3751 * g.d ∧
      |v.c2 * h| ≤ 0.3751 * g.d := by
  have hb := velocity_bound hv
  have hd := hg.d_pos
  have he := hg.eta
  obtain ⟨V, hV⟩ : ∃ V, V = 1.000001 * LIGHT_SPEED := ⟨_, rfl⟩
  have hV0 : 0 < V := by rw [hV, LIGHT_SPEED]; norm_num
  rw [← hV] at hb
  have hh1 : |h| ≤ dt / 2 * 1.000001 + ETA := by
    unfold RoundsTo at hh
    rw [abs_of_pos (by linarith : 0 < dt / 2)] at hh
    have h1 := abs_sub_abs_le_abs_sub h (dt / 2)
    rw [abs_of_pos (by linarith : 0 < dt / 2)] at h1
    unfold EPS at hh
    norm_num at hh ⊢
    linarith
  have key : V * |h| ≤ 0.3751 * g.d := by
    have h1 : V * |h| ≤ V * (dt / 2 * 1.000001 + ETA) := by gcongr
    have h2 : V * ETA ≤ V * (g.d / 2 ^ 100) := by gcongr
    have h3 : V * dt ≤ 1.000001 * (3 / 4 * g.d) := by
      rw [hV]
      nlinarith
    have h4 : V ≤ 10 ^ 9 := by rw [hV, LIGHT_SPEED]; norm_num
    have h5 : V * (g.d / 2 ^ 100) ≤ 10 ^ 9 * (g.d / 2 ^ 100) := by gcongr
    norm_num at *
    linarith
  have k2 : (V * |h|) ^ 2 ≤ (0.3751 * g.d) ^ 2 := by gcongr
  have k3 : (V * |h|) ^ 2 = V ^ 2 * h ^ 2 := by rw [mul_pow, sq_abs]
  have s0 := sq_nonneg v.c0
  have s1 := sq_nonneg v.c1
  have s2 := sq_nonneg v.c2
  have sh := sq_nonneg h
  have hpos : (0 : ℝ) ≤ 0.3751 * g.d := by positivity
  have part : ∀ {t : ℝ}, t ≤ V ^ 2 → t * h ^ 2 ≤ (0.3751 * g.d) ^ 2 := by
    intro t ht
    calc t * h ^ 2 ≤ V ^ 2 * h ^ 2 := by gcongr
      _ = (V * |h|) ^ 2 := k3.symm
      _ ≤ _ := k2
  refine ⟨?_, ?_, ?_, ?_⟩
  · rw [mul_pow, mul_pow, ← add_mul]
    exact part (by linarith)
  · exact abs_le_of_sq_le_sq (by rw [mul_pow]; exact part (by linarith)) hpos
  · exact abs_le_of_sq_le_sq (by rw [mul_pow]; exact part (by linarith)) hpos
  · exact abs_le_of_sq_le_sq (by rw [mul_pow]; exact part (by linarith)) hpos

/-! ## One coordinate -/

/-- Where a coordinate is between two cycles: half a cell from the walls, but for a thousandth of a cell, and a twentieth at the outer
wall, where the return to the half plane leads outward -/
def HomeR (g : GridR) (x : ℝ) : Prop := 0.499 * g.d ≤ x ∧ x ≤ g.size - 0.45 * g.d

/-- Where a coordinate is between the halves of a cycle -/
def AbroadR (g : GridR) (x : ℝ) : Prop := 0.12 * g.d ≤ x ∧ x ≤ g.size - 0.07 * g.d

theorem HomeR.abroad {g : GridR} (hg : g.Ok) {x : ℝ} (h : HomeR g x) : AbroadR g x := by
  have := hg.d_pos
  exact ⟨by linarith [h.1], by linarith [h.2]⟩

theorem cellQuotient_near' {g : GridR} (hg : g.Ok) {x y q : ℝ} (hx : x ≤ g.size) (hr : RoundsTo ((x + g.d) / g.d) y q) :
    |q - y| ≤ 1 / 5000 := by
  refine hr.trans ?_
  have hd := hg.d_pos
  have h1 : (x + g.d) / g.d ≤ 2 ^ 32 + 1 := by
    rw [div_le_iff₀ hd]
    linarith [hg.size_le]
  have h2 : ETA ≤ 1 / 2 ^ 100 := by
    unfold ETA
    exact one_div_le_one_div_of_le (by positivity) (pow_le_pow_right₀ (by norm_num) (by norm_num))
  unfold EPS
  norm_num at h1 h2 ⊢
  linarith

theorem cellQuotient_near {g : GridR} (hg : g.Ok) {x q : ℝ} (hx : x ≤ g.size) (hr : RoundsTo (x / g.d) (x / g.d) q) :
    |q - x / g.d| ≤ 1 / 5000 := by
  have hd := hg.d_pos
  apply cellQuotient_near' hg hx
  unfold RoundsTo at hr ⊢
  refine hr.trans ?_
  have : x / g.d ≤ (x + g.d) / g.d := by gcongr; linarith
  have : 0 < EPS := by unfold EPS; positivity
  gcongr

/-- Cells of positions between the walls are cells of the grid. -/
theorem cell_ok {g : GridR} (hg : g.Ok) {x : ℝ} (h : AbroadR g x) {i : ℤ} (hi : CellR g x i) : 0 ≤ i ∧ i + 1 < g.n := by
  obtain ⟨q, hq, rfl⟩ := hi
  have hd := hg.d_pos
  have hs := abs_le.1 hg.size_near
  have hx0 : 0 < x := by linarith [h.1]
  have hq' : |q - x / g.d| ≤ 1 / 5000 := cellQuotient_near hg (by linarith [h.2]) (by rwa [abs_of_pos hx0] at hq)
  have hq2 := abs_le.1 hq'
  have h1 : 0.12 ≤ x / g.d := by rw [le_div_iff₀ hd]; exact h.1
  have h2 : x / g.d ≤ (g.n : ℝ) - 1 - 0.06 := by
    rw [div_le_iff₀ hd]
    nlinarith [h.2, hs.2]
  constructor
  · have : 0 < ⌈q⌉ := Int.ceil_pos.2 (by linarith [hq2.1])
    omega
  · have : ⌈q⌉ ≤ (g.n : ℤ) - 1 := Int.ceil_le.2 (by push_cast; linarith [hq2.2])
    omega

/-- Cells counted from half a cell, used for the fields between the nodes -/
theorem shifted_ok {g : GridR} (hg : g.Ok) {x : ℝ} (h : HomeR g x) {i : ℤ} (hi : ShiftedCellR g x i) : 0 ≤ i ∧ i + 1 < g.n ∧
    (x ≤ g.size - 0.501 * g.d → i + 1 < (g.n : ℤ) - 1) := by
  obtain ⟨q, hq, rfl⟩ := hi
  have hd := hg.d_pos
  have hs := abs_le.1 hg.size_near
  have hx0 : 0 < x := by linarith [h.1]
  have hn := hg.n_ge
  rw [abs_of_pos hx0] at hq
  have hq' : |q - (x - g.d / 2) / g.d| ≤ 1 / 5000 := cellQuotient_near' hg (by linarith [h.2, hg.size_ge]) hq
  have hq2 := abs_le.1 hq'
  have h2 : (x - g.d / 2) / g.d ≤ (g.n : ℝ) - 1 - 0.9 := by
    rw [div_le_iff₀ hd]
    nlinarith [h.2, hs.2]
  refine ⟨le_max_left _ _, ?_, ?_⟩
  · have : ⌈q⌉ ≤ (g.n : ℤ) - 1 := Int.ceil_le.2 (by push_cast; linarith [hq2.2])
    omega
  · intro hx
    have h3 : (x - g.d / 2) / g.d ≤ (g.n : ℝ) - 2 - 0.0009 := by
      rw [div_le_iff₀ hd]
      nlinarith [hs.2]
    have : ⌈q⌉ ≤ (g.n : ℤ) - 2 := Int.ceil_le.2 (by push_cast; linarith [hq2.2])
    omega

/-- Cells of positions less than nine tenths of a cell apart are the same or neighbours. -/
theorem cell_neighbours {g : GridR} (hg : g.Ok) {x y : ℝ} (hx : AbroadR g x) (hy : AbroadR g y) (h : |y - x| ≤ 0.9 * g.d) {i j : ℤ}
    (hi : CellR g x i) (hj : CellR g y j) : |j - i| ≤ 1 := by
  obtain ⟨q, hq, rfl⟩ := hi
  obtain ⟨t, ht, rfl⟩ := hj
  have hd := hg.d_pos
  have hx0 : 0 < x := by linarith [hx.1]
  have hy0 : 0 < y := by linarith [hy.1]
  have a := abs_le.1 (cellQuotient_near (x := x) hg (by linarith [hx.2]) (by rwa [abs_of_pos hx0] at hq))
  have b := abs_le.1 (cellQuotient_near (x := y) hg (by linarith [hy.2]) (by rwa [abs_of_pos hy0] at ht))
  have h' := abs_le.1 h
  have c1 : y / g.d ≤ x / g.d + 0.9 := by
    rw [div_add' _ _ _ hd.ne', div_le_div_iff_of_pos_right hd]
    linarith
  have c2 : x / g.d ≤ y / g.d + 0.9 := by
    rw [div_add' _ _ _ hd.ne', div_le_div_iff_of_pos_right hd]
    linarith
  have d1 : ⌈t⌉ ≤ ⌈q⌉ + 1 := Int.ceil_le.2 (by push_cast; linarith [Int.le_ceil q, a.1, b.2])
  have d2 : ⌈q⌉ ≤ ⌈t⌉ + 1 := Int.ceil_le.2 (by push_cast; linarith [Int.le_ceil t, b.1, a.2])
  rw [abs_le]
  omega

/-- The walls: from at most 0.7512 cells away, a macroparticle that lives on is half a cell from the walls. -/
theorem wall_home {bunch : Bool} {g : GridR} (hg : g.Ok) {x0 x y x' : ℝ} {lives : Prop} (h0 : HomeR g x0)
    (hx : |x - x0| ≤ 0.7512 * g.d) (hf : FarWallR bunch g x y lives) (hl : lives) (hn : NearWallR g y x') :
    0.4996 * g.d ≤ x' ∧ x' ≤ g.size - 0.4994 * g.d ∧ x' - x0 ≤ 0.7536 * g.d ∧ x0 - x' ≤ 0.8526 * g.d := by
  have hd := hg.d_pos
  have hs := hg.size_ge
  have hx' := abs_le.1 hx
  obtain ⟨w, hw, hf⟩ := hf
  obtain ⟨h, hh, hn⟩ := hn
  have w1 := abs_le.1 (hg.near (by linarith) hw)
  have h1 := abs_le.1 (hg.near (by linarith) hh)
  have hw0 : 0 < w := by linarith [w1.1]
  have hxs : |x| ≤ 2 * g.size := by
    rw [abs_le]
    exact ⟨by linarith [h0.1, hx'.1], by linarith [h0.2, hx'.2]⟩
  rcases hf with ⟨hlt, hf⟩ | ⟨hge, rfl, -⟩
  · cases bunch with
    | true =>
      simp only [if_true] at hf
      exact absurd hl hf.2
    | false =>
      simp only [Bool.false_eq_true, if_false] at hf
      have y1 := abs_le.1 (hg.near (by rw [abs_of_pos hw0]; linarith [w1.2]) hf.1)
      have hy : ¬ y < h := by
        have := h0.2
        linarith [y1.1, y1.2, w1.1, w1.2, h1.1, h1.2, hx'.1, hx'.2]
      rcases hn with ⟨hlt', -⟩ | ⟨-, rfl⟩
      · exact absurd hlt' hy
      · refine ⟨by linarith [h1.1], by linarith [y1.2, w1.2], by linarith [y1.2, w1.2, hx'.2], by linarith [y1.1, w1.1, hx'.2, h0.2]⟩
  · rcases hn with ⟨hlt', hr⟩ | ⟨hge', rfl⟩
    · have y1 := abs_le.1 (hg.near (by linarith) hr)
      refine ⟨by linarith [y1.1, h1.2], by linarith [y1.2, hx'.1, h0.1], by linarith [y1.2, hx'.1, h0.1],
        by linarith [y1.1, h1.2, hx'.1]⟩
    · have := not_lt.1 hge
      have := not_lt.1 hge'
      exact ⟨by linarith [h1.1], by linarith [w1.2], by linarith [hx'.2], by linarith [hx'.1]⟩

/-! ## One cycle -/

/-- Half a step, one coordinate -/
theorem half_near {g : GridR} (hg : g.Ok) {x w y : ℝ} (hx : |x| ≤ g.size) (hw : |w| ≤ 0.3751 * g.d)
    (h : RoundsTo (|x| + |w|) (x + w) y) : |y - (x + w)| ≤ g.d / 5000 :=
  hg.near (by have := hg.d_pos; have := hg.size_ge; linarith) h

/-- The distance from the axis changes by no more than the way. -/
theorem radius_near {x y r L : ℝ} (hr : 0 ≤ r) (hL : 0 ≤ L) (h : (x - r) ^ 2 + y ^ 2 ≤ L ^ 2) : |√(x * x + y * y) - r| ≤ L := by
  obtain ⟨s, hs⟩ : ∃ s, s = √(x * x + y * y) := ⟨_, rfl⟩
  rw [← hs]
  have h0 : 0 ≤ s := by rw [hs]; positivity
  have h2 : s ^ 2 = x * x + y * y := by rw [hs, Real.sq_sqrt (by nlinarith [sq_nonneg x, sq_nonneg y])]
  have h3 : x ≤ s := by
    rw [hs]
    exact Real.le_sqrt_of_sq_le (by nlinarith [sq_nonneg y])
  apply abs_le_of_sq_le_sq _ hL
  nlinarith

/-- The first half of a cycle -/
theorem first_half {gr gz : GridR} (hgr : gr.Ok) (hgz : gz.Ok) {dt : ℝ} {u v p a m : V3} (hv : VelocityR u v) (hdt : 0 < dt)
    (hcr : LIGHT_SPEED * dt ≤ 3 / 4 * gr.d) (hcz : LIGHT_SPEED * dt ≤ 3 / 4 * gz.d) (hs : HalfStepR dt v p a) (hb : BackR a m)
    (hr : HomeR gr p.c0) (hp : p.c1 = 0) (hz : HomeR gz p.c2) :
    |m.c0 - p.c0| ≤ 0.3758 * gr.d ∧ m.c1 = 0 ∧ |m.c2 - p.c2| ≤ 0.3753 * gz.d := by
  obtain ⟨h, hh, s0, s1, s2⟩ := hs
  obtain ⟨b0, b1, b2⟩ := hb
  have dr := hgr.d_pos
  have dz := hgz.d_pos
  have szr := hgr.size_ge
  have szz := hgz.size_ge
  obtain ⟨l, l0, l1, -⟩ := half_length hgr hv hdt hcr hh
  obtain ⟨-, -, -, l2⟩ := half_length hgz hv hdt hcz hh
  have p0 : 0 ≤ p.c0 := by linarith [hr.1]
  have p2 : 0 ≤ p.c2 := by linarith [hz.1]
  have e0 := abs_le.1 (half_near hgr (by rw [abs_of_nonneg p0]; linarith [hr.2]) l0 s0)
  have e1 := abs_le.1 (half_near hgr (by rw [hp, abs_zero]; linarith) l1 s1)
  have e2 := abs_le.1 (half_near hgz (by rw [abs_of_nonneg p2]; linarith [hz.2]) l2 s2)
  rw [hp, zero_add] at e1
  have k0 := abs_le.1 l0
  have k1 := abs_le.1 l1
  have k2 := abs_le.1 l2
  have rad : |√(a.c0 * a.c0 + a.c1 * a.c1) - p.c0| ≤ 0.3756 * gr.d := by
    apply radius_near p0 (by positivity)
    obtain ⟨W, hW⟩ : ∃ W, W = v.c0 * h := ⟨_, rfl⟩
    obtain ⟨Y, hY⟩ : ∃ Y, Y = v.c1 * h := ⟨_, rfl⟩
    rw [← hW] at l k0 e0
    rw [← hY] at l k1 e1
    obtain ⟨s, hs⟩ : ∃ s, s = a.c0 - p.c0 - W := ⟨_, rfl⟩
    obtain ⟨t, ht⟩ : ∃ t, t = a.c1 - Y := ⟨_, rfl⟩
    have q1 : a.c0 - p.c0 = W + s := by rw [hs]; ring
    have q2 : a.c1 = Y + t := by rw [ht]; ring
    rw [q1, q2]
    have hs' : -(gr.d / 5000) ≤ s ∧ s ≤ gr.d / 5000 := by rw [hs]; constructor <;> linarith [e0.1, e0.2]
    have ht' : -(gr.d / 5000) ≤ t ∧ t ≤ gr.d / 5000 := by rw [ht]; exact e1
    -- |W| + |Y| ≤ 0.5306 d
    have hWY : |W| + |Y| ≤ 0.5306 * gr.d := by
      have : (|W| + |Y|) ^ 2 ≤ (0.5306 * gr.d) ^ 2 := by
        have e : (|W| + |Y|) ^ 2 + (|W| - |Y|) ^ 2 = 2 * (W ^ 2 + Y ^ 2) := by rw [← sq_abs W, ← sq_abs Y]; ring
        nlinarith [sq_nonneg (|W| - |Y|), sq_nonneg gr.d]
      exact le_of_sq_le_sq this (by positivity)
    have m1 : W * s ≤ |W| * (gr.d / 5000) := by
      calc W * s ≤ |W * s| := le_abs_self _
        _ = |W| * |s| := abs_mul _ _
        _ ≤ _ := by gcongr; exact abs_le.2 hs'
    have m2 : Y * t ≤ |Y| * (gr.d / 5000) := by
      calc Y * t ≤ |Y * t| := le_abs_self _
        _ = |Y| * |t| := abs_mul _ _
        _ ≤ _ := by gcongr; exact abs_le.2 ht'
    have m3 : s ^ 2 ≤ (gr.d / 5000) ^ 2 := sq_le_sq' (by linarith [hs'.1]) hs'.2
    have m4 : t ^ 2 ≤ (gr.d / 5000) ^ 2 := sq_le_sq' (by linarith [ht'.1]) ht'.2
    have m5 : (|W| + |Y|) * (gr.d / 5000) ≤ 0.5306 * gr.d * (gr.d / 5000) := by gcongr
    nlinarith only [l, m1, m2, m3, m4, m5, sq_nonneg gr.d]
  have rad' := abs_le.1 rad
  have mm := abs_le.1 (hgr.near (by linarith [rad'.2, hr.2]) b0)
  refine ⟨?_, b1, ?_⟩
  · rw [abs_le]
    constructor <;> linarith [mm.1, mm.2, rad'.1, rad'.2]
  · rw [b2, abs_le]
    constructor <;> linarith [e2.1, e2.2, k2.1, k2.2]

theorem first_half_abroad {g : GridR} (hg : g.Ok) {x y : ℝ} (hx : HomeR g x) (h : |y - x| ≤ 0.3758 * g.d) : AbroadR g y := by
  have := hg.d_pos
  have := abs_le.1 h
  exact ⟨by linarith [hx.1, this.1], by linarith [hx.2, this.2]⟩

/-- The return to the half plane after the walls -/
theorem back_home {g : GridR} (hg : g.Ok) {x y r r0 : ℝ} (hx : 0.4996 * g.d ≤ x) (hx' : x ≤ g.size - 0.4994 * g.d)
    (hy : |y| ≤ 0.3753 * g.d) (hr : RoundsTo √(x * x + y * y) √(x * x + y * y) r) (h1 : x - r0 ≤ 0.7536 * g.d)
    (h2 : r0 - x ≤ 0.8526 * g.d) : HomeR g r ∧ |r - r0| ≤ 0.9 * g.d := by
  have hd := hg.d_pos
  obtain ⟨s, hs⟩ : ∃ s, s = √(x * x + y * y) := ⟨_, rfl⟩
  rw [← hs] at hr
  have h0 : 0 ≤ s := by rw [hs]; positivity
  have hs2 : s ^ 2 = x * x + y * y := by rw [hs, Real.sq_sqrt (by nlinarith [sq_nonneg x, sq_nonneg y])]
  have h3 : x ≤ s := by
    rw [hs]
    exact Real.le_sqrt_of_sq_le (by nlinarith [sq_nonneg y])
  have hyy : y ^ 2 ≤ (0.3753 * g.d) ^ 2 := by rw [← sq_abs y]; gcongr
  have hx0 : 0 < x := by linarith
  have h4 : s ≤ x + 0.1412 * g.d := by
    by_contra hc
    push Not at hc
    nlinarith
  have h5 : s ≤ g.size - 0.4502 * g.d := by
    by_contra hc
    push Not at hc
    have hX : 1.4996 * g.d ≤ g.size - 0.4994 * g.d := by linarith [hg.size_ge]
    have a1 : g.size - 0.4994 * g.d + 0.0492 * g.d < s := by linarith
    obtain ⟨X, hX'⟩ : ∃ X, X = g.size - 0.4994 * g.d := ⟨_, rfl⟩
    rw [← hX'] at hX a1 hx'
    have X0 : 0 ≤ X := by linarith
    have a2 : (X + 0.0492 * g.d) ^ 2 < s ^ 2 := pow_lt_pow_left₀ a1 (by linarith) two_ne_zero
    have a3 : x * x ≤ X * X := by gcongr
    nlinarith
  have n := abs_le.1 (hg.near (by linarith) hr)
  refine ⟨⟨by linarith [n.1], by linarith [n.2]⟩, ?_⟩
  rw [abs_le]
  constructor <;> linarith [n.1, n.2]

/-- One cycle -/
theorem cycle_home {bunch : Bool} {gr gz : GridR} (hgr : gr.Ok) (hgz : gz.Ok) {dt : ℝ} {p m p' : V3} {lives : Prop} (hdt : 0 < dt)
    (hcr : LIGHT_SPEED * dt ≤ 3 / 4 * gr.d) (hcz : LIGHT_SPEED * dt ≤ 3 / 4 * gz.d) (h : MovedR bunch gr gz dt p m p' lives)
    (hr : HomeR gr p.c0) (hp : p.c1 = 0) (hz : HomeR gz p.c2) :
    AbroadR gr m.c0 ∧ AbroadR gz m.c2 ∧ (lives → HomeR gr p'.c0 ∧ p'.c1 = 0 ∧ HomeR gz p'.c2 ∧ |p'.c0 - p.c0| ≤ 0.9 * gr.d ∧
      |p'.c2 - p.c2| ≤ 0.9 * gz.d) := by
  obtain ⟨u, v, a, b, c, hv, s1, b1, s2, rf, b2⟩ := h
  obtain ⟨f0, f1, f2⟩ := first_half hgr hgz hv hdt hcr hcz s1 b1 hr hp hz
  have dr := hgr.d_pos
  have dz := hgz.d_pos
  have szr := hgr.size_ge
  have szz := hgz.size_ge
  have A0 := first_half_abroad hgr hr f0
  have A2 := first_half_abroad hgz hz (f2.trans (by linarith))
  refine ⟨A0, A2, ?_⟩
  intro hl
  obtain ⟨h, hh, t0, t1, t2⟩ := s2
  obtain ⟨-, l0, l1, -⟩ := half_length hgr hv hdt hcr hh
  obtain ⟨-, -, -, l2⟩ := half_length hgz hv hdt hcz hh
  have m0 : 0 ≤ m.c0 := by linarith [A0.1]
  have m2 : 0 ≤ m.c2 := by linarith [A2.1]
  have e0 := abs_le.1 (half_near hgr (by rw [abs_of_nonneg m0]; linarith [A0.2]) l0 t0)
  have e1 := abs_le.1 (half_near hgr (by rw [f1, abs_zero]; linarith) l1 t1)
  have e2 := abs_le.1 (half_near hgz (by rw [abs_of_nonneg m2]; linarith [A2.2]) l2 t2)
  rw [f1, zero_add] at e1
  have k0 := abs_le.1 l0
  have k1 := abs_le.1 l1
  have k2 := abs_le.1 l2
  have f0' := abs_le.1 f0
  have f2' := abs_le.1 f2
  obtain ⟨x, z, L1, L2, w1, w2, n1, n2, c1, hL⟩ := rf
  obtain ⟨hL1, hL2⟩ := hL.1 hl
  obtain ⟨r1, r2, r3, r4⟩ := wall_home hgr hr (by rw [abs_le]; constructor <;> linarith [e0.1, e0.2, k0.1, k0.2, f0'.1, f0'.2]) w1 hL1 n1
  obtain ⟨z1, z2, z3, z4⟩ := wall_home hgz hz (by rw [abs_le]; constructor <;> linarith [e2.1, e2.2, k2.1, k2.2, f2'.1, f2'.2]) w2 hL2 n2
  obtain ⟨q0, q1, q2⟩ := b2
  have hy : |c.c1| ≤ 0.3753 * gr.d := by
    rw [c1, abs_le]
    constructor <;> linarith [e1.1, e1.2, k1.1, k1.2]
  obtain ⟨H, N⟩ := back_home hgr r1 r2 hy q0 r3 r4
  rw [q2]
  refine ⟨H, q1, ⟨by linarith, by linarith⟩, N, ?_⟩
  rw [abs_le]
  constructor <;> linarith

/-! ## C101 -/

/-- Strictly between the axis and the outer wall, and between the two end walls -/
def InsideR (gr gz : GridR) (p : V3) : Prop := 0 < p.c0 ∧ p.c0 < gr.size ∧ 0 < p.c2 ∧ p.c2 < gz.size

/-- `i` and `i + 1` are nodes of the grid. -/
def GridR.Cell (g : GridR) (i : ℤ) : Prop := 0 ≤ i ∧ i + 1 < g.n

/-- Half a cell from the walls but for a thousandth of a cell, where the loading and the walls put macroparticles -/
def StartR (g : GridR) (x : ℝ) : Prop := g.d / 2 - g.d / 1000 ≤ x ∧ x ≤ g.size - g.d / 2 + g.d / 1000

theorem reaches_home {bunch : Bool} {gr gz : GridR} (hgr : gr.Ok) (hgz : gz.Ok) {dt : ℝ} (hdt : 0 < dt)
    (hcr : LIGHT_SPEED * dt ≤ 3 / 4 * gr.d) (hcz : LIGHT_SPEED * dt ≤ 3 / 4 * gz.d) {p0 : V3} (hr : StartR gr p0.c0)
    (hp : p0.c1 = 0) (hz : StartR gz p0.c2) {n : ℕ} {p : V3} (h : ReachesR bunch gr gz dt p0 n p) :
    HomeR gr p.c0 ∧ p.c1 = 0 ∧ HomeR gz p.c2 := by
  induction h with
  | start =>
    have := hgr.d_pos
    have := hgz.d_pos
    exact ⟨⟨by linarith [hr.1], by linarith [hr.2]⟩, hp, ⟨by linarith [hz.1], by linarith [hz.2]⟩⟩
  | step n p m p' lives _ hm hl ih =>
    obtain ⟨-, -, h⟩ := cycle_home hgr hgz hdt hcr hcz hm ih.1 ih.2.1 ih.2.2
    exact ⟨(h hl).1, (h hl).2.1, (h hl).2.2.1⟩

/-- C101: with the arithmetic of the machine, for every momentum the fields give in every cycle and every rounding, a macroparticle is
strictly inside the chamber before and after each cycle and between its halves; all cells its position is assigned to are cells of
the grid; the cells before and after a cycle are the same or neighbours.

Partial: of the time step it is required that light passes at most three quarters of a cell in it, and the arrays with a row or a
column less are entered within their bounds only if the position is a thousandth of a cell inside the wall (`C101_wall_violated`);
overflow and NaN are excluded. -/
theorem C101_history_partial {bunch : Bool} {gr gz : GridR} (hgr : gr.Ok) (hgz : gz.Ok) {dt : ℝ} (hdt : 0 < dt)
    (hcr : LIGHT_SPEED * dt ≤ 3 / 4 * gr.d) (hcz : LIGHT_SPEED * dt ≤ 3 / 4 * gz.d) {p0 : V3} (hr : StartR gr p0.c0)
    (hp : p0.c1 = 0) (hz : StartR gz p0.c2) {n : ℕ} {p : V3} (h : ReachesR bunch gr gz dt p0 n p) :
    InsideR gr gz p ∧
    (∀ i, CellR gr p.c0 i → gr.Cell i) ∧ (∀ k, CellR gz p.c2 k → gz.Cell k) ∧
    (∀ i, ShiftedCellR gr p.c0 i → gr.Cell i ∧ (p.c0 ≤ gr.size - 0.501 * gr.d → i + 1 < (gr.n : ℤ) - 1)) ∧
    (∀ k, ShiftedCellR gz p.c2 k → gz.Cell k ∧ (p.c2 ≤ gz.size - 0.501 * gz.d → k + 1 < (gz.n : ℤ) - 1)) ∧
    ∀ m p' lives, MovedR bunch gr gz dt p m p' lives →
      InsideR gr gz m ∧ (∀ i, CellR gr m.c0 i → gr.Cell i) ∧ (∀ k, CellR gz m.c2 k → gz.Cell k) ∧
      (lives → InsideR gr gz p' ∧ (∀ i i', CellR gr p.c0 i → CellR gr p'.c0 i' → |i' - i| ≤ 1) ∧
        (∀ k k', CellR gz p.c2 k → CellR gz p'.c2 k' → |k' - k| ≤ 1)) := by
  obtain ⟨H0, H1, H2⟩ := reaches_home hgr hgz hdt hcr hcz hr hp hz h
  have dr := hgr.d_pos
  have dz := hgz.d_pos
  have ins : ∀ {q : V3}, AbroadR gr q.c0 → AbroadR gz q.c2 → InsideR gr gz q := fun {q} a b =>
    ⟨by linarith [a.1], by linarith [a.2], by linarith [b.1], by linarith [b.2]⟩
  have A0 := H0.abroad hgr
  have A2 := H2.abroad hgz
  refine ⟨ins A0 A2, fun i hi => cell_ok hgr A0 hi, fun k hk => cell_ok hgz A2 hk, fun i hi => ?_, fun k hk => ?_, ?_⟩
  · obtain ⟨a, b, c⟩ := shifted_ok hgr H0 hi
    exact ⟨⟨a, b⟩, c⟩
  · obtain ⟨a, b, c⟩ := shifted_ok hgz H2 hk
    exact ⟨⟨a, b⟩, c⟩
  · intro m p' lives hm
    obtain ⟨M0, M2, hl⟩ := cycle_home hgr hgz hdt hcr hcz hm H0 H1 H2
    refine ⟨ins M0 M2, fun i hi => cell_ok hgr M0 hi, fun k hk => cell_ok hgz M2 hk, fun hl' => ?_⟩
    obtain ⟨P0, -, P2, N0, N2⟩ := hl hl'
    exact ⟨ins (P0.abroad hgr) (P2.abroad hgz), fun i i' hi hi' => cell_neighbours hgr A0 (P0.abroad hgr) N0 hi hi',
      fun k k' hk hk' => cell_neighbours hgz A2 (P2.abroad hgz) N2 hk hk'⟩

end Verif
