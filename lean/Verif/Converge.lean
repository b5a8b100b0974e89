import Verif.Taylor
import Verif.YeeError

/-!
# Smooth solutions of Maxwell's equations and the residual they leave in the field solver (C96)
-/

namespace Verif

open Finset

/-! ## Specification -/

/-- partial derivatives of a function of time, radius and height -/
noncomputable def dT (u : E3 → ℝ) (t r z : ℝ) : ℝ := deriv (fun s => u (s, r, z)) t
/-- by the radius -/
noncomputable def dR (u : E3 → ℝ) (t r z : ℝ) : ℝ := deriv (fun s => u (t, s, z)) r
/-- by the height -/
noncomputable def dZ (u : E3 → ℝ) (t r z : ℝ) : ℝ := deriv (fun s => u (t, r, s)) z

/-- Fields and currents as functions of time, radius and height (`f` is asked for the components of `E`, `H` and `J`
only), and the medium. -/
structure Wave where
  f : Arr → E3 → ℝ
  eps : ℝ → ℝ → ℝ
  sig : ℝ → ℝ → ℝ

/-- components of the two fields -/
def isField : Arr → Prop
  | .er | .ephi | .ez | .hr | .hphi | .hz => True
  | _ => False

/-- An axially symmetric solution of Maxwell's equations in the cylinder of radius `R` and length `Z` with conducting
walls, for the times from `0` to `T`. Its components have three continuous derivatives; those along the angle are odd
functions of the radius, as those of every smooth vector field are. -/
structure Wave.Solves (W : Wave) (T R Z : ℝ) : Prop where
  smooth : ∀ a, isField a → ContDiff ℝ 3 (W.f a)
  odd_e : ∀ t r z, W.f .ephi (t, -r, z) = -W.f .ephi (t, r, z)
  odd_h : ∀ t r z, W.f .hphi (t, -r, z) = -W.f .hphi (t, r, z)
  faraday_r : ∀ t r z, 0 ≤ t → t ≤ T → 0 ≤ r → r ≤ R → 0 ≤ z → z ≤ Z →
    MAGN_CONST * dT (W.f .hr) t r z = dZ (W.f .ephi) t r z
  faraday_phi : ∀ t r z, 0 ≤ t → t ≤ T → 0 ≤ r → r ≤ R → 0 ≤ z → z ≤ Z →
    MAGN_CONST * dT (W.f .hphi) t r z = dR (W.f .ez) t r z - dZ (W.f .er) t r z
  faraday_z : ∀ t r z, 0 ≤ t → t ≤ T → 0 < r → r ≤ R → 0 ≤ z → z ≤ Z →
    MAGN_CONST * dT (W.f .hz) t r z = -(dR (W.f .ephi) t r z + W.f .ephi (t, r, z) / r)
  ampere_r : ∀ t r z, 0 ≤ t → t ≤ T → 0 ≤ r → r ≤ R → 0 ≤ z → z ≤ Z →
    W.eps r z * EPSILON0 * dT (W.f .er) t r z + W.sig r z * W.f .er (t, r, z) =
      -dZ (W.f .hphi) t r z - W.f .jr (t, r, z)
  ampere_phi : ∀ t r z, 0 ≤ t → t ≤ T → 0 ≤ r → r ≤ R → 0 ≤ z → z ≤ Z →
    W.eps r z * EPSILON0 * dT (W.f .ephi) t r z + W.sig r z * W.f .ephi (t, r, z) =
      dZ (W.f .hr) t r z - dR (W.f .hz) t r z - W.f .jphi (t, r, z)
  ampere_z : ∀ t r z, 0 ≤ t → t ≤ T → 0 < r → r ≤ R → 0 ≤ z → z ≤ Z →
    W.eps r z * EPSILON0 * dT (W.f .ez) t r z + W.sig r z * W.f .ez (t, r, z) =
      dR (W.f .hphi) t r z + W.f .hphi (t, r, z) / r - W.f .jz (t, r, z)
  ampere_axis : ∀ t z, 0 ≤ t → t ≤ T → 0 ≤ z → z ≤ Z →
    W.eps 0 z * EPSILON0 * dT (W.f .ez) t 0 z + W.sig 0 z * W.f .ez (t, 0, z) =
      2 * dR (W.f .hphi) t 0 z - W.f .jz (t, 0, z)
  wall_r : ∀ t r, 0 ≤ t → t ≤ T → 0 ≤ r → r ≤ R → W.f .er (t, r, 0) = 0 ∧ W.f .er (t, r, Z) = 0
  wall_phi : ∀ t r, 0 ≤ t → t ≤ T → 0 ≤ r → r ≤ R → W.f .ephi (t, r, 0) = 0 ∧ W.f .ephi (t, r, Z) = 0
  outer_phi : ∀ t z, 0 ≤ t → t ≤ T → 0 ≤ z → z ≤ Z → W.f .ephi (t, R, z) = 0
  outer_z : ∀ t z, 0 ≤ t → t ≤ T → 0 ≤ z → z ≤ Z → W.f .ez (t, R, z) = 0

/-- radius of the node `i` of an array -/
noncomputable def arrR (G : Geom) : Arr → ℤ → ℝ
  | .er, i | .hphi, i | .hz, i | .jr, i => ((i : ℝ) + 1 / 2) * G.dr
  | _, i => (i : ℝ) * G.dr

/-- height of the node `k` of an array -/
noncomputable def arrZ (G : Geom) : Arr → ℤ → ℝ
  | .ez, k | .hr, k | .hphi, k | .jz, k => ((k : ℝ) + 1 / 2) * G.dz
  | _, k => (k : ℝ) * G.dz

/-- value at a node -/
noncomputable def Wave.at (W : Wave) (G : Geom) (t : ℝ) (a : Arr) (i k : ℤ) : ℝ :=
  W.f a (t, arrR G a i, arrZ G a k)

/-! ## Bounds of the derivatives -/

/-- values and derivatives along the axes are at most `M` -/
structure Bd (u : E3 → ℝ) (M T R Z : ℝ) : Prop where
  cd : ContDiff ℝ (3 : ℕ) u
  b0 : ∀ p ∈ Set.Icc (-T) T ×ˢ Set.Icc (-R) R ×ˢ Set.Icc 0 Z, |u p| ≤ M
  bt : ∀ p ∈ Set.Icc (-T) T ×ˢ Set.Icc (-R) R ×ˢ Set.Icc 0 Z, |dirD u (1, 0, 0) p| ≤ M ∧
    |dirD (dirD u (1, 0, 0)) (1, 0, 0) p| ≤ M ∧ |dirD (dirD (dirD u (1, 0, 0)) (1, 0, 0)) (1, 0, 0) p| ≤ M
  br : ∀ p ∈ Set.Icc (-T) T ×ˢ Set.Icc (-R) R ×ˢ Set.Icc 0 Z,
    |dirD (dirD (dirD u (0, 1, 0)) (0, 1, 0)) (0, 1, 0) p| ≤ M
  bz : ∀ p ∈ Set.Icc (-T) T ×ˢ Set.Icc (-R) R ×ˢ Set.Icc 0 Z,
    |dirD (dirD (dirD u (0, 0, 1)) (0, 0, 1)) (0, 0, 1) p| ≤ M

theorem Bd.mono {u : E3 → ℝ} {M M' T R Z : ℝ} (h : Bd u M T R Z) (hm : M ≤ M') : Bd u M' T R Z :=
  ⟨h.cd, fun p hp => (h.b0 p hp).trans hm,
    fun p hp => ⟨(h.bt p hp).1.trans hm, (h.bt p hp).2.1.trans hm, (h.bt p hp).2.2.trans hm⟩,
    fun p hp => (h.br p hp).trans hm, fun p hp => (h.bz p hp).trans hm⟩

theorem Bd.exists {u : E3 → ℝ} (hu : ContDiff ℝ 3 u) (T R Z : ℝ) : ∃ M, 0 ≤ M ∧ Bd u M T R Z := by
  have hu' : ContDiff ℝ (3 : ℕ) u := by exact_mod_cast hu
  have c1 : ∀ v, ContDiff ℝ (2 : ℕ) (dirD u v) := fun v => dirD_contDiff hu' v
  have c2 : ∀ v, ContDiff ℝ (1 : ℕ) (dirD (dirD u v) v) := fun v => dirD_contDiff (c1 v) v
  have c3 : ∀ v, ContDiff ℝ (0 : ℕ) (dirD (dirD (dirD u v) v) v) := fun v => dirD_contDiff (c2 v) v
  obtain ⟨A0, p0, q0⟩ := box_bound hu'.continuous T R Z
  obtain ⟨A1, p1, q1⟩ := box_bound (c1 (1, 0, 0)).continuous T R Z
  obtain ⟨A2, p2, q2⟩ := box_bound (c2 (1, 0, 0)).continuous T R Z
  obtain ⟨A3, p3, q3⟩ := box_bound (c3 (1, 0, 0)).continuous T R Z
  obtain ⟨A4, p4, q4⟩ := box_bound (c3 (0, 1, 0)).continuous T R Z
  obtain ⟨A5, p5, q5⟩ := box_bound (c3 (0, 0, 1)).continuous T R Z
  refine ⟨A0 + A1 + A2 + A3 + A4 + A5, by positivity, hu', ?_, ?_, ?_, ?_⟩
  · intro p hp; have := q0 p hp; linarith
  · intro p hp; have a := q1 p hp; have b := q2 p hp; have c := q3 p hp
    refine ⟨?_, ?_, ?_⟩ <;> linarith
  · intro p hp; have := q4 p hp; linarith
  · intro p hp; have := q5 p hp; linarith

theorem dT_eq {u : E3 → ℝ} (hu : ContDiff ℝ (3 : ℕ) u) (t r z : ℝ) : dT u t r z = dirD u (1, 0, 0) (t, r, z) := by
  have := line_deriv hu (0, r, z) (1, 0, 0) t
  simp at this
  exact this.deriv
theorem dR_eq {u : E3 → ℝ} (hu : ContDiff ℝ (3 : ℕ) u) (t r z : ℝ) : dR u t r z = dirD u (0, 1, 0) (t, r, z) := by
  have := line_deriv hu (t, 0, z) (0, 1, 0) r
  simp at this
  exact this.deriv
theorem dZ_eq {u : E3 → ℝ} (hu : ContDiff ℝ (3 : ℕ) u) (t r z : ℝ) : dZ u t r z = dirD u (0, 0, 1) (t, r, z) := by
  have := line_deriv hu (t, r, 0) (0, 0, 1) z
  simp at this
  exact this.deriv

section nodes
variable {u : E3 → ℝ} {M T R Z : ℝ}

theorem Bd.cT (h : Bd u M T R Z) {t r z s : ℝ} (hs : 0 ≤ s) (h1 : -T ≤ t - s) (h2 : t + s ≤ T) (h3 : -R ≤ r)
    (h4 : r ≤ R) (h5 : 0 ≤ z) (h6 : z ≤ Z) :
    |u (t + s, r, z) - u (t - s, r, z) - 2 * s * dT u t r z| ≤ M / 3 * s ^ 3 := by
  rw [dT_eq h.cd]
  have := central h.cd (t, r, z) (1, 0, 0) hs (fun x hx => (h.bt ((t, r, z) + x • (1, 0, 0)) (by
    have := abs_le.1 hx
    simp only [Prod.smul_mk, smul_eq_mul, Prod.mk_add_mk, Set.mem_prod, Set.mem_Icc]
    refine ⟨⟨?_, ?_⟩, ⟨?_, ?_⟩, ?_, ?_⟩ <;> linarith)).2.2)
  simpa using this

theorem Bd.aT (h : Bd u M T R Z) {t r z s : ℝ} (hs : 0 ≤ s) (h1 : -T ≤ t - s) (h2 : t + s ≤ T) (h3 : -R ≤ r)
    (h4 : r ≤ R) (h5 : 0 ≤ z) (h6 : z ≤ Z) :
    |u (t + s, r, z) + u (t - s, r, z) - 2 * u (t, r, z)| ≤ M * s ^ 2 := by
  have := average (h.cd.of_le (by norm_cast)) (t, r, z) (1, 0, 0) hs (fun x hx => (h.bt ((t, r, z) + x • (1, 0, 0)) (by
    have := abs_le.1 hx
    simp only [Prod.smul_mk, smul_eq_mul, Prod.mk_add_mk, Set.mem_prod, Set.mem_Icc]
    refine ⟨⟨?_, ?_⟩, ⟨?_, ?_⟩, ?_, ?_⟩ <;> linarith)).2.1)
  simpa using this

theorem Bd.lT (h : Bd u M T R Z) {t r z s : ℝ} (hs : 0 ≤ s) (h1 : -T ≤ t - s) (h2 : t + s ≤ T) (h3 : -R ≤ r)
    (h4 : r ≤ R) (h5 : 0 ≤ z) (h6 : z ≤ Z) :
    |u (t + s, r, z) - u (t - s, r, z)| ≤ 2 * M * s := by
  have := difference (h.cd.of_le (by norm_cast)) (t, r, z) (1, 0, 0) hs (fun x hx => (h.bt ((t, r, z) + x • (1, 0, 0)) (by
    have := abs_le.1 hx
    simp only [Prod.smul_mk, smul_eq_mul, Prod.mk_add_mk, Set.mem_prod, Set.mem_Icc]
    refine ⟨⟨?_, ?_⟩, ⟨?_, ?_⟩, ?_, ?_⟩ <;> linarith)).1)
  simpa using this

theorem Bd.cR (h : Bd u M T R Z) {t r z s : ℝ} (hs : 0 ≤ s) (h1 : -T ≤ t) (h2 : t ≤ T) (h3 : -R ≤ r - s)
    (h4 : r + s ≤ R) (h5 : 0 ≤ z) (h6 : z ≤ Z) :
    |u (t, r + s, z) - u (t, r - s, z) - 2 * s * dR u t r z| ≤ M / 3 * s ^ 3 := by
  rw [dR_eq h.cd]
  have := central h.cd (t, r, z) (0, 1, 0) hs (fun x hx => h.br ((t, r, z) + x • (0, 1, 0)) (by
    have := abs_le.1 hx
    simp only [Prod.smul_mk, smul_eq_mul, Prod.mk_add_mk, Set.mem_prod, Set.mem_Icc]
    refine ⟨⟨?_, ?_⟩, ⟨?_, ?_⟩, ?_, ?_⟩ <;> linarith))
  simpa using this

theorem Bd.cZ (h : Bd u M T R Z) {t r z s : ℝ} (hs : 0 ≤ s) (h1 : -T ≤ t) (h2 : t ≤ T) (h3 : -R ≤ r)
    (h4 : r ≤ R) (h5 : 0 ≤ z - s) (h6 : z + s ≤ Z) :
    |u (t, r, z + s) - u (t, r, z - s) - 2 * s * dZ u t r z| ≤ M / 3 * s ^ 3 := by
  rw [dZ_eq h.cd]
  have := central h.cd (t, r, z) (0, 0, 1) hs (fun x hx => h.bz ((t, r, z) + x • (0, 0, 1)) (by
    have := abs_le.1 hx
    simp only [Prod.smul_mk, smul_eq_mul, Prod.mk_add_mk, Set.mem_prod, Set.mem_Icc]
    refine ⟨⟨?_, ?_⟩, ⟨?_, ?_⟩, ?_, ?_⟩ <;> linarith))
  simpa using this

theorem Bd.oR (h : Bd u M T R Z) (ho : ∀ t r z, u (t, -r, z) = -u (t, r, z)) {t r z s : ℝ} (hs : 0 ≤ s) (hr : s ≤ r)
    (h1 : -T ≤ t) (h2 : t ≤ T) (h4 : r + s ≤ R) (h5 : 0 ≤ z) (h6 : z ≤ Z) :
    |u (t, r + s, z) + u (t, r - s, z) - 2 * u (t, r, z)| ≤ 2 * M * r * s ^ 2 := by
  have := average_odd h.cd (t, 0, z) (0, 1, 0) hs hr (fun x => by
      have := ho t x z; simpa using this) (fun x hx => h.br ((t, 0, z) + x • (0, 1, 0)) (by
    have := abs_le.1 hx
    simp only [Prod.smul_mk, smul_eq_mul, Prod.mk_add_mk, Set.mem_prod, Set.mem_Icc]
    refine ⟨⟨?_, ?_⟩, ⟨?_, ?_⟩, ?_, ?_⟩ <;> linarith))
  simpa using this

end nodes


/-! ## Residuals -/

theorem quot_close {Y D M d : ℝ} (hd : 0 < d) (h : |Y - 2 * (d / 2) * D| ≤ M / 3 * (d / 2) ^ 3) (hM : 0 ≤ M) :
    |Y / d - D| ≤ M * d ^ 2 := by
  have e : Y / d - D = (Y - 2 * (d / 2) * D) / d := by field_simp
  rw [e, abs_div, abs_of_pos hd, div_le_iff₀ hd]
  refine h.trans ?_
  have : 0 ≤ M * d ^ 3 := by positivity
  nlinarith

theorem mean_close {Y U M d r : ℝ} (hr : 0 < r) (h : |Y - 2 * U| ≤ 2 * M * r * (d / 2) ^ 2) (hM : 0 ≤ M) :
    |Y / (2 * r) - U / r| ≤ M * d ^ 2 := by
  have e : Y / (2 * r) - U / r = (Y - 2 * U) / (2 * r) := by field_simp
  rw [e, abs_div, abs_of_pos (by positivity : 0 < 2 * r), div_le_iff₀ (by positivity)]
  refine h.trans ?_
  have : 0 ≤ M * r * d ^ 2 := by positivity
  nlinarith

/-- the current that belongs to a component of the electric field -/
def jOf : Arr → Arr
  | .er => .jr
  | .ephi => .jphi
  | .ez => .jz
  | a => a

/-- the grid of the cylinder -/
structure GridOf (G : Geom) (R Z : ℝ) : Prop where
  valid : G.Valid
  r_size : G.r_size = R
  z_size : G.z_size = Z

theorem GridOf.r_le {G : Geom} {R Z : ℝ} (h : GridOf G R Z) {x : ℝ} (hx : x ≤ (G.nr : ℝ) - 1) : x * G.dr ≤ R := by
  rw [← h.r_size, h.valid.r_size_eq, mul_comm]
  exact mul_le_mul_of_nonneg_left hx h.valid.dr_pos.le

theorem GridOf.z_le {G : Geom} {R Z : ℝ} (h : GridOf G R Z) {x : ℝ} (hx : x ≤ (G.nz : ℝ) - 1) : x * G.dz ≤ Z := by
  rw [← h.z_size, h.valid.z_size_eq, mul_comm]
  exact mul_le_mul_of_nonneg_left hx h.valid.dz_pos.le

theorem cast_lt_nat {i : ℤ} {n : ℕ} (h : i < (n : ℤ) - 1) : (i : ℝ) + 1 ≤ (n : ℝ) - 1 := by
  have : i + 1 ≤ (n : ℤ) - 1 := by omega
  exact_mod_cast this

theorem cast_le_nat {i : ℤ} {n : ℕ} (h : i < (n : ℤ)) : (i : ℝ) ≤ (n : ℝ) - 1 := by
  have : i ≤ (n : ℤ) - 1 := by omega
  exact_mod_cast this

/-- the curl of the solution at the magnetic nodes, as the program computes it -/
theorem curlE_close {W : Wave} {T R Z M : ℝ} (hS : W.Solves T R Z) (hB : ∀ a, isField a → Bd (W.f a) M T R Z)
    (hM : 0 ≤ M) {G : Geom} (hF : GridOf G R Z) {t : ℝ} (ht : 0 ≤ t) (ht' : t ≤ T) {a : Arr} {i k : ℤ}
    (hn : HNode G a i k) :
    |curlE G (W.at G t) a i k - MAGN_CONST * dT (W.f a) t (arrR G a i) (arrZ G a k)| ≤
      2 * M * (G.dr ^ 2 + G.dz ^ 2) := by
  have dr := hF.valid.dr_pos
  have dz := hF.valid.dz_pos
  have q1 : 0 ≤ M * G.dr ^ 2 := by positivity
  have q2 : 0 ≤ M * G.dz ^ 2 := by positivity
  have hR : 0 ≤ R := by
    have := hF.r_le (x := 0) (by have := hF.valid.nr_ge; have : (2:ℝ) ≤ G.nr := by exact_mod_cast this
                                 linarith)
    linarith
  cases a <;> simp only [HNode, Box] at hn
  · -- H_r
    obtain ⟨i0, i1, k0, k1⟩ := hn
    have x0 : (0:ℝ) ≤ (i:ℝ) := by exact_mod_cast i0
    have z0 : (0:ℝ) ≤ (k:ℝ) := by exact_mod_cast k0
    have xr := hF.r_le (cast_le_nat i1)
    have zr := hF.z_le (cast_lt_nat k1)
    have xp : 0 ≤ (i:ℝ) * G.dr := by positivity
    have zp : 0 ≤ (k:ℝ) * G.dz := by positivity
    simp only [arrR, arrZ]
    rw [hS.faraday_r t _ _ ht ht' xp xr (by linarith) (by linarith)]
    have c := (hB .ephi trivial).cZ (t := t) (r := (i:ℝ) * G.dr) (z := ((k:ℝ) + 1 / 2) * G.dz) (s := G.dz / 2)
      (by linarith) (by linarith) ht' (by linarith) xr (by linarith) (by linarith)
    have c' := quot_close dz c hM
    rw [show ((k:ℝ) + 1 / 2) * G.dz + G.dz / 2 = ((k:ℝ) + 1) * G.dz by ring,
      show ((k:ℝ) + 1 / 2) * G.dz - G.dz / 2 = (k:ℝ) * G.dz by ring] at c'
    simp only [curlE, Wave.at, arrR, arrZ]
    push_cast
    linarith
  · -- H_phi
    obtain ⟨i0, i1, k0, k1⟩ := hn
    have x0 : (0:ℝ) ≤ (i:ℝ) := by exact_mod_cast i0
    have z0 : (0:ℝ) ≤ (k:ℝ) := by exact_mod_cast k0
    have xr := hF.r_le (cast_lt_nat i1)
    have zr := hF.z_le (cast_lt_nat k1)
    have xp : 0 ≤ (i:ℝ) * G.dr := by positivity
    have zp : 0 ≤ (k:ℝ) * G.dz := by positivity
    simp only [arrR, arrZ]
    rw [hS.faraday_phi t _ _ ht ht' (by linarith) (by linarith) (by linarith) (by linarith)]
    have c := (hB .ez trivial).cR (t := t) (r := ((i:ℝ) + 1 / 2) * G.dr) (z := ((k:ℝ) + 1 / 2) * G.dz) (s := G.dr / 2)
      (by linarith) (by linarith) ht' (by linarith) (by linarith) (by linarith) (by linarith)
    have c' := quot_close dr c hM
    rw [show ((i:ℝ) + 1 / 2) * G.dr + G.dr / 2 = ((i:ℝ) + 1) * G.dr by ring,
      show ((i:ℝ) + 1 / 2) * G.dr - G.dr / 2 = (i:ℝ) * G.dr by ring] at c'
    have d := (hB .er trivial).cZ (t := t) (r := ((i:ℝ) + 1 / 2) * G.dr) (z := ((k:ℝ) + 1 / 2) * G.dz) (s := G.dz / 2)
      (by linarith) (by linarith) ht' (by linarith) (by linarith) (by linarith) (by linarith)
    have d' := quot_close dz d hM
    rw [show ((k:ℝ) + 1 / 2) * G.dz + G.dz / 2 = ((k:ℝ) + 1) * G.dz by ring,
      show ((k:ℝ) + 1 / 2) * G.dz - G.dz / 2 = (k:ℝ) * G.dz by ring] at d'
    simp only [curlE, Wave.at, arrR, arrZ]
    push_cast
    rw [abs_le] at *
    constructor <;> linarith
  · -- H_z
    obtain ⟨i0, i1, k0, k1⟩ := hn
    have x0 : (0:ℝ) ≤ (i:ℝ) := by exact_mod_cast i0
    have z0 : (0:ℝ) ≤ (k:ℝ) := by exact_mod_cast k0
    have xr := hF.r_le (cast_lt_nat i1)
    have zr := hF.z_le (cast_lt_nat k1)
    have xp : 0 ≤ (i:ℝ) * G.dr := by positivity
    have zp : 0 ≤ (k:ℝ) * G.dz := by positivity
    simp only [arrR, arrZ]
    rw [hS.faraday_z t _ _ ht ht' (by linarith) (by linarith) (by linarith) (by linarith)]
    have c := (hB .ephi trivial).cR (t := t) (r := ((i:ℝ) + 1 / 2) * G.dr) (z := (k:ℝ) * G.dz) (s := G.dr / 2)
      (by linarith) (by linarith) ht' (by linarith) (by linarith) (by linarith) (by linarith)
    have c' := quot_close dr c hM
    have d := (hB .ephi trivial).oR hS.odd_e (t := t) (r := ((i:ℝ) + 1 / 2) * G.dr) (z := (k:ℝ) * G.dz) (s := G.dr / 2)
      (by linarith) (by linarith) (by linarith) ht' (by linarith) (by linarith) (by linarith)
    have d' := mean_close (by linarith) d hM
    rw [show ((i:ℝ) + 1 / 2) * G.dr + G.dr / 2 = ((i:ℝ) + 1) * G.dr by ring,
      show ((i:ℝ) + 1 / 2) * G.dr - G.dr / 2 = (i:ℝ) * G.dr by ring] at c' d'
    simp only [curlE, Wave.at, arrR, arrZ]
    rw [show 2 * G.dr * ((i:ℝ) + 1 / 2) = 2 * (((i:ℝ) + 1 / 2) * G.dr) by ring]
    push_cast
    rw [abs_le] at *
    constructor <;> linarith

/-- the curl of the solution at the electric nodes, as the program computes it -/
theorem curlH_close {W : Wave} {T R Z M : ℝ} (hS : W.Solves T R Z) (hB : ∀ a, isField a → Bd (W.f a) M T R Z)
    (hM : 0 ≤ M) {G : Geom} (hF : GridOf G R Z) {t : ℝ} (ht : 0 ≤ t) (ht' : t ≤ T) {a : Arr} {i k : ℤ}
    (hn : ENode G a i k) :
    |curlH G (W.at G t) a i k - W.at G t (jOf a) i k -
      (W.eps (arrR G a i) (arrZ G a k) * EPSILON0 * dT (W.f a) t (arrR G a i) (arrZ G a k) +
        W.sig (arrR G a i) (arrZ G a k) * W.at G t a i k)| ≤
      2 * M * (G.dr ^ 2 + G.dz ^ 2) := by
  have dr := hF.valid.dr_pos
  have dz := hF.valid.dz_pos
  have q1 : 0 ≤ M * G.dr ^ 2 := by positivity
  have q2 : 0 ≤ M * G.dz ^ 2 := by positivity
  have hR : 0 ≤ R := by
    have := hF.r_le (x := 0) (by have := hF.valid.nr_ge; have : (2:ℝ) ≤ G.nr := by exact_mod_cast this
                                 linarith)
    linarith
  cases a <;> simp only [ENode, Box] at hn
  · -- E_r
    obtain ⟨i0, i1, k0, k1⟩ := hn
    have x0 : (0:ℝ) ≤ (i:ℝ) := by exact_mod_cast i0
    have z0 : (1:ℝ) ≤ (k:ℝ) := by exact_mod_cast k0
    have xr := hF.r_le (cast_lt_nat i1)
    have zr := hF.z_le (cast_lt_nat k1)
    have xp : 0 ≤ (i:ℝ) * G.dr := by positivity
    have zp : 0 ≤ ((k:ℝ) - 1) * G.dz := mul_nonneg (by linarith) dz.le
    have e := hS.ampere_r t (((i:ℝ) + 1 / 2) * G.dr) ((k:ℝ) * G.dz) ht ht' (by linarith) (by linarith)
      (by linarith) (by linarith)
    have c := (hB .hphi trivial).cZ (t := t) (r := ((i:ℝ) + 1 / 2) * G.dr) (z := (k:ℝ) * G.dz) (s := G.dz / 2)
      (by linarith) (by linarith) ht' (by linarith) (by linarith) (by linarith) (by linarith)
    have c' := quot_close dz c hM
    rw [show (k:ℝ) * G.dz + G.dz / 2 = ((k:ℝ) + 1 / 2) * G.dz by ring,
      show (k:ℝ) * G.dz - G.dz / 2 = (((k:ℝ) - 1) + 1 / 2) * G.dz by ring] at c'
    simp only [curlH, Wave.at, jOf, arrR, arrZ]
    push_cast
    rw [e]
    rw [abs_le] at *
    constructor <;> linarith
  · -- E_phi
    obtain ⟨i0, i1, k0, k1⟩ := hn
    have x0 : (1:ℝ) ≤ (i:ℝ) := by exact_mod_cast i0
    have z0 : (1:ℝ) ≤ (k:ℝ) := by exact_mod_cast k0
    have xr := hF.r_le (cast_lt_nat i1)
    have zr := hF.z_le (cast_lt_nat k1)
    have xp : 0 ≤ ((i:ℝ) - 1) * G.dr := mul_nonneg (by linarith) dr.le
    have zp : 0 ≤ ((k:ℝ) - 1) * G.dz := mul_nonneg (by linarith) dz.le
    have e := hS.ampere_phi t ((i:ℝ) * G.dr) ((k:ℝ) * G.dz) ht ht' (by linarith) (by linarith)
      (by linarith) (by linarith)
    have c := (hB .hr trivial).cZ (t := t) (r := (i:ℝ) * G.dr) (z := (k:ℝ) * G.dz) (s := G.dz / 2)
      (by linarith) (by linarith) ht' (by linarith) (by linarith) (by linarith) (by linarith)
    have c' := quot_close dz c hM
    rw [show (k:ℝ) * G.dz + G.dz / 2 = ((k:ℝ) + 1 / 2) * G.dz by ring,
      show (k:ℝ) * G.dz - G.dz / 2 = (((k:ℝ) - 1) + 1 / 2) * G.dz by ring] at c'
    have d := (hB .hz trivial).cR (t := t) (r := (i:ℝ) * G.dr) (z := (k:ℝ) * G.dz) (s := G.dr / 2)
      (by linarith) (by linarith) ht' (by linarith) (by linarith) (by linarith) (by linarith)
    have d' := quot_close dr d hM
    rw [show (i:ℝ) * G.dr + G.dr / 2 = ((i:ℝ) + 1 / 2) * G.dr by ring,
      show (i:ℝ) * G.dr - G.dr / 2 = (((i:ℝ) - 1) + 1 / 2) * G.dr by ring] at d'
    simp only [curlH, Wave.at, jOf, arrR, arrZ]
    push_cast
    rw [e]
    rw [abs_le] at *
    constructor <;> linarith
  · -- E_z
    obtain ⟨i0, i1, k0, k1⟩ := hn
    have z0 : (0:ℝ) ≤ (k:ℝ) := by exact_mod_cast k0
    have xr := hF.r_le (cast_lt_nat i1)
    have zr := hF.z_le (cast_lt_nat k1)
    have zp : 0 ≤ (k:ℝ) * G.dz := by positivity
    by_cases hi : i = 0
    · subst hi
      have e := hS.ampere_axis t (((k:ℝ) + 1 / 2) * G.dz) ht ht' (by linarith) (by linarith)
      have c := (hB .hphi trivial).cR (t := t) (r := 0) (z := ((k:ℝ) + 1 / 2) * G.dz) (s := G.dr / 2)
        (by linarith) (by linarith) ht' (by push_cast at xr; linarith) (by push_cast at xr; linarith)
        (by linarith) (by linarith)
      have c' := quot_close dr c hM
      rw [zero_add, zero_sub, hS.odd_h] at c'
      simp only [curlH, Wave.at, jOf, arrR, arrZ]
      push_cast
      rw [zero_mul, e, zero_add, one_div_mul_eq_div]
      rw [show 4 / G.dr * W.f .hphi (t, G.dr / 2, ((k:ℝ) + 1 / 2) * G.dz) =
        2 * ((W.f .hphi (t, G.dr / 2, ((k:ℝ) + 1 / 2) * G.dz) - -W.f .hphi (t, G.dr / 2, ((k:ℝ) + 1 / 2) * G.dz)) / G.dr) by
          ring]
      rw [abs_le] at *
      constructor <;> linarith
    · have i0' : 1 ≤ i := by omega
      have x0 : (1:ℝ) ≤ (i:ℝ) := by exact_mod_cast i0'
      have xp : 0 ≤ ((i:ℝ) - 1) * G.dr := mul_nonneg (by linarith) dr.le
      have e := hS.ampere_z t ((i:ℝ) * G.dr) (((k:ℝ) + 1 / 2) * G.dz) ht ht' (by linarith) (by linarith)
        (by linarith) (by linarith)
      have c := (hB .hphi trivial).cR (t := t) (r := (i:ℝ) * G.dr) (z := ((k:ℝ) + 1 / 2) * G.dz) (s := G.dr / 2)
        (by linarith) (by linarith) ht' (by linarith) (by linarith) (by linarith) (by linarith)
      have c' := quot_close dr c hM
      have d := (hB .hphi trivial).oR hS.odd_h (t := t) (r := (i:ℝ) * G.dr) (z := ((k:ℝ) + 1 / 2) * G.dz) (s := G.dr / 2)
        (by linarith) (by linarith) (by linarith) ht' (by linarith) (by linarith) (by linarith)
      have d' := mean_close (by linarith) d hM
      rw [show (i:ℝ) * G.dr + G.dr / 2 = ((i:ℝ) + 1 / 2) * G.dr by ring,
        show (i:ℝ) * G.dr - G.dr / 2 = (((i:ℝ) - 1) + 1 / 2) * G.dr by ring] at c' d'
      simp only [curlH, Wave.at, jOf, arrR, arrZ]
      rw [if_neg hi, show 2 * G.dr * (i:ℝ) = 2 * ((i:ℝ) * G.dr) by ring]
      push_cast
      rw [e]
      rw [abs_le] at *
      constructor <;> linarith

end Verif
