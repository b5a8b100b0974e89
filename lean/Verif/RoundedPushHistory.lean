import Verif.RoundedPushRun

/-!
# C108: rounding does not stop a run
-/

namespace Verif

namespace RoundedPush

theorem e_small : EPS ≤ 1 / 1000000 := by rw [eps_val]; norm_num

/-- A push in terms of momenta: the momentum grows by the two halves of the electric force and by rounding. -/
theorem push_mom {e b v u v' : V3} (h : PushR e b v u v') {x M : ℝ} (hβ1 : v.len / LIGHT_SPEED < 1) (hx : mom (v.len / LIGHT_SPEED) = x)
    (hM1 : 1 ≤ M) (hM : x + 2 * (e.len / LIGHT_SPEED) ≤ M) (hM2 : EPS * M ^ 2 ≤ 1 / 2 ^ 12) :
    ∃ y, 0 ≤ y ∧ y ≤ x + 2 * (e.len / LIGHT_SPEED) + 12 * EPS * M ^ 3 ∧ EPS / 2 ≤ spd y ∧
      v'.len / LIGHT_SPEED ≤ spd y * (1 + 75 * EPS) := by
  have hc := c_pos
  have hs := snap_len v
  have hW0 := len_nonneg (snap v)
  have hV0 := len_nonneg v
  have ep := eps_pos'
  have et := eta_pos'
  have e1 := e_small
  obtain ⟨c, hce⟩ : ∃ c, c = LIGHT_SPEED := ⟨_, rfl⟩
  have hc8 : c = 3 * 10 ^ 8 := by rw [hce, c_val]
  obtain ⟨β, hβ⟩ : ∃ β, β = (snap v).len / c := ⟨_, rfl⟩
  rw [← hce] at hc hx hM hβ1 ⊢
  have hβ0 : 0 ≤ β := by rw [hβ]; positivity
  have hβv : β ≤ v.len / c := by
    rw [hβ]
    gcongr
    exact hs.1
  have hv0 : 0 ≤ v.len / c := by positivity
  have hβl : β < 1 := by linarith
  have hx0 : 0 ≤ x := by rw [← hx]; exact mom_nonneg hv0
  have hxβ : mom β ≤ x := by rw [← hx]; exact mom_mono hβ0 hβv hβ1
  have hmβ := mom_nonneg hβ0
  have hk0 : 0 ≤ e.len / c := div_nonneg (len_nonneg e) hc.le
  have hxM : x ≤ M := by linarith
  have hmM : mom β ^ 2 ≤ M ^ 2 := by
    gcongr
    linarith
  have hM12 : 1 ≤ M ^ 2 := by nlinarith
  have hq1 : 1 / 2 ^ 40 ≤ 1 - β ^ 2 := by
    rw [one_add_mom hβ0 hβl]
    apply one_div_le_one_div_of_le (by positivity)
    rw [eps_val] at hM2
    norm_num at hM2 ⊢
    linarith
  obtain ⟨d, hd, hdq, hu, -⟩ := push_len h rfl (by rw [← hce, ← hβ]; exact hq1)
  rw [← hce, ← hβ] at hdq
  obtain ⟨hd', hD⟩ := mom_diff hβ0 hβl hq1 hdq
  obtain ⟨g, u1, u2, g', b', u3, hg, h1, h2, -, -, h3, h4, h5⟩ := h
  have hvl := velocity_len h5
  rw [← hce] at hvl
  obtain ⟨D, hDe⟩ : ∃ D, D = β / √d := ⟨_, rfl⟩
  have hDW : (snap v).len / √d = c * D := by rw [hDe, hβ]; field_simp
  have hD0 : 0 ≤ D := by rw [hDe]; positivity
  rw [hDW] at hu
  rw [← hDe] at hD
  obtain ⟨k, hk⟩ : ∃ k, k = 2 * (e.len / c) := ⟨_, rfl⟩
  have hke : 2 * e.len = c * k := by rw [hk]; field_simp
  rw [hke] at hu
  rw [← hk] at hM ⊢
  have hkn : 0 ≤ k := by rw [hk]; positivity
  -- the momentum with a little added
  obtain ⟨Y, hY⟩ : ∃ Y, Y = D + k + EPS := ⟨_, rfl⟩
  have hY0 : 0 ≤ Y := by rw [hY]; positivity
  have hM3 : 1 ≤ M ^ 3 := by
    calc (1 : ℝ) = 1 ^ 3 := by norm_num
      _ ≤ M ^ 3 := by gcongr
  have hDx : D ≤ x + 10 * EPS * M ^ 3 := by
    have a1 : mom β * (1 + mom β ^ 2) ≤ M * (2 * M ^ 2) := by
      apply mul_le_mul (by linarith) (by linarith) (by positivity) (by linarith)
    have a2 : mom β * (1 + 5 * EPS * (1 + mom β ^ 2)) = mom β + 5 * EPS * (mom β * (1 + mom β ^ 2)) := by ring
    have a3 : 5 * EPS * (mom β * (1 + mom β ^ 2)) ≤ 5 * EPS * (M * (2 * M ^ 2)) := by gcongr
    have a4 : 5 * EPS * (M * (2 * M ^ 2)) = 10 * EPS * M ^ 3 := by ring
    linarith
  -- the small speed of the added momentum
  have f2 : EPS / 2 ≤ spd Y := by
    have a1 : spd EPS ≤ spd Y := spd_mono ep.le (by rw [hY]; linarith)
    have a2 : EPS / 2 ≤ spd EPS := by
      unfold spd
      have : √(1 + EPS ^ 2) ≤ 2 := by
        rw [Real.sqrt_le_left (by norm_num)]
        nlinarith
      gcongr
    linarith
  refine ⟨Y, hY0, ?_, f2, ?_⟩
  · have : EPS * 1 ≤ EPS * M ^ 3 := by gcongr
    rw [hY]
    linarith
  · obtain ⟨y, hy⟩ : ∃ y, y = u.len / c := ⟨_, rfl⟩
    have hy0 : 0 ≤ y := by rw [hy]; exact div_nonneg (len_nonneg _) hc.le
    have huy : u.len = c * y := by rw [hy]; field_simp
    rw [← hy] at hvl
    have et1 := eta_le
    have et2 : 20 * ETA ≤ EPS / 1000 := by rw [eps_val]; norm_num at et1 ⊢; linarith
    have hyY : y ≤ (1 + 64 * EPS) * Y := by
      have : c * y ≤ c * ((1 + 64 * EPS) * Y) := by
        rw [← huy]
        have a1 : 16 * ETA ≤ c * (EPS * (1 + 64 * EPS)) := by
          have b1 : EPS * 1 ≤ EPS * (1 + 64 * EPS) := mul_le_mul_of_nonneg_left (by linarith only [ep]) ep.le
          have b2 : 1 * (EPS * 1) ≤ c * (EPS * (1 + 64 * EPS)) :=
            mul_le_mul (by rw [hc8]; norm_num) b1 (by rw [mul_one]; exact ep.le) hc.le
          linarith only [b2, et2, ep, et]
        calc u.len ≤ (c * D + c * k) * (1 + 64 * EPS) + 16 * ETA := hu
          _ ≤ (c * D + c * k) * (1 + 64 * EPS) + c * (EPS * (1 + 64 * EPS)) := by linarith
          _ = c * ((1 + 64 * EPS) * Y) := by rw [hY]; ring
      exact le_of_mul_le_mul_left this hc
    have f1 : spd y ≤ (1 + 64 * EPS) * spd Y := (spd_mono hy0 hyY).trans (spd_scale (by linarith) hY0)
    have h6 := (abs_le.1 hvl).2
    have h7 : v'.len / c ≤ spd y * (1 + 8 * EPS) + 2 * ETA := by
      rw [div_le_iff₀ hc]
      have : 2 * ETA ≤ 2 * ETA * c := by rw [hc8]; linarith
      have e : (spd y * (1 + 8 * EPS) + 2 * ETA) * c = c * spd y + 8 * EPS * (c * spd y) + 2 * ETA * c := by ring
      rw [e]
      linarith
    have s0 := spd_nonneg hY0
    have s1 := spd_nonneg hy0
    obtain ⟨A, hA⟩ : ∃ A, A = spd y := ⟨_, rfl⟩
    obtain ⟨B, hB⟩ : ∃ B, B = spd Y := ⟨_, rfl⟩
    rw [← hA] at h7 f1 s1
    rw [← hB] at f1 f2 s0 ⊢
    clear hM2 hDx hdq hD hu
    rw [eps_val] at f1 f2 h7 et2 ⊢
    norm_num at f1 f2 h7 et2 ⊢
    linarith

/-- The rotation of the velocity back to the half plane -/
theorem back_len {c v v' : V3} {r : ℝ} (h : BackVelocityR c r v v') (hs : |c.c1 / r| ≤ 0.8) :
    |v'.len - v.len| ≤ 8 * EPS * v.len + 2 * ETA := by
  obtain ⟨s, k, hs1, hk, h0, h1, h2⟩ := h
  have ep := eps_pos'
  have et := eta_pos'
  have e1 := e_small
  have et1 : ETA ≤ 1 / 1000 := by have := eta_le; norm_num at this ⊢; linarith
  have hsa : |s| ≤ 0.81 := by
    have a1 := abs_sub_abs_le_abs_sub s (c.c1 / r)
    unfold RoundsTo at hs1
    have a2 : EPS * |c.c1 / r| ≤ EPS * 0.8 := by gcongr
    norm_num at *
    linarith
  have hss : s ^ 2 ≤ 3 / 4 := by
    rw [← sq_abs]
    nlinarith [abs_nonneg s]
  have hk := hk hss
  obtain ⟨κ, hκ⟩ : ∃ κ, κ = √(1 - s * s) := ⟨_, rfl⟩
  have hκ0 : 0 ≤ κ := by rw [hκ]; positivity
  have hκ2 : κ ^ 2 = 1 - s ^ 2 := by rw [hκ, Real.sq_sqrt (by nlinarith)]; ring
  have hκ1 : κ ≤ 1 := by nlinarith [sq_nonneg s]
  rw [← hκ] at hk
  have hk' : |k - κ| ≤ EPS := hk.trans (by nlinarith)
  have hka : |k| ≤ 1.1 := by
    have a1 := abs_sub_abs_le_abs_sub k κ
    rw [abs_of_nonneg hκ0] at a1
    linarith
  obtain ⟨V, hV⟩ : ∃ V, V = v.len := ⟨_, rfl⟩
  have hV0 : 0 ≤ V := hV ▸ len_nonneg v
  have kv := comp_le v
  rw [← hV] at kv ⊢
  have hR : (⟨κ * v.c0 - s * v.c1, s * v.c0 + κ * v.c1, v.c2⟩ : V3).len = V := by
    rw [hV]
    unfold V3.len V3.sq
    congr 1
    dsimp only
    linear_combination (v.c0 ^ 2 + v.c1 ^ 2) * hκ2
  rw [← hR]
  have m1 : ∀ {x : ℝ}, |x| ≤ V → |k * x| ≤ 1.1 * V := fun hx => by rw [abs_mul]; gcongr
  have m2 : ∀ {x : ℝ}, |x| ≤ V → |s * x| ≤ 0.81 * V := fun hx => by rw [abs_mul]; gcongr
  have m3 : ∀ {x : ℝ}, |x| ≤ V → |(k - κ) * x| ≤ EPS * V := fun hx => by rw [abs_mul]; gcongr
  have c0 : |v'.c0 - (κ * v.c0 - s * v.c1)| ≤ 4 * EPS * V + ETA := by
    have a : v'.c0 - (κ * v.c0 - s * v.c1) = (v'.c0 - (k * v.c0 - s * v.c1)) + (k - κ) * v.c0 := by ring
    rw [a]
    refine (abs_add_le _ _).trans ?_
    have b1 : EPS * (|k * v.c0| + |s * v.c1|) ≤ EPS * (1.1 * V + 0.81 * V) := by gcongr; exact m1 kv.1; exact m2 kv.2.1
    have b2 := m3 kv.1
    have b3 : |v'.c0 - (k * v.c0 - s * v.c1)| ≤ EPS * (|k * v.c0| + |s * v.c1|) + ETA := h0
    have b4 : 0 ≤ EPS * V := by positivity
    linarith
  have c1 : |v'.c1 - (s * v.c0 + κ * v.c1)| ≤ 4 * EPS * V + ETA := by
    have a : v'.c1 - (s * v.c0 + κ * v.c1) = (v'.c1 - (s * v.c0 + k * v.c1)) + (k - κ) * v.c1 := by ring
    rw [a]
    refine (abs_add_le _ _).trans ?_
    have b1 : EPS * (|s * v.c0| + |k * v.c1|) ≤ EPS * (0.81 * V + 1.1 * V) := by gcongr; exact m2 kv.1; exact m1 kv.2.1
    have b2 := m3 kv.2.1
    have b3 : |v'.c1 - (s * v.c0 + k * v.c1)| ≤ EPS * (|s * v.c0| + |k * v.c1|) + ETA := h1
    have b4 : 0 ≤ EPS * V := by positivity
    linarith
  have c2 : |v'.c2 - v.c2| ≤ 4 * EPS * V + ETA := by
    rw [h2, sub_self, abs_zero]
    have b4 : 0 ≤ EPS * V := by positivity
    linarith
  refine (len_near (x := ⟨κ * v.c0 - s * v.c1, s * v.c0 + κ * v.c1, v.c2⟩) c0 c1 c2).trans (le_of_eq ?_)
  rw [hR]
  ring

theorem signs_len {v v' : V3} (h : SignsR v v') : v'.len = v.len := by
  obtain ⟨h0, h1, h2⟩ := h
  unfold V3.len V3.sq
  rw [h1]
  rcases h0 with h0 | h0 <;> rcases h2 with h2 | h2 <;> rw [h0, h2] <;> congr 1 <;> ring

/-- A cycle as a motion of positions -/
theorem cycle_moved {bunch : Bool} {gr gz : GridR} {dt : ℝ} {e b p v p' v' : V3} {lives : Prop}
    (h : CycleR bunch gr gz dt e b p v p' v' lives) : ∃ m, MovedR bunch gr gz dt p m p' lives := by
  obtain ⟨u, v1, v2, a, m, h, c, hp, s1, b1, s2, rf, b2, -, -⟩ := h
  obtain ⟨g, u1, u2, g', b', u3, -, -, -, -, -, -, -, hv⟩ := hp
  exact ⟨m, u, v1, a, h, c, hv, s1, b1, s2, rf, b2⟩

/-- The sine of the return to the half plane -/
theorem cycle_sine {bunch : Bool} {gr gz : GridR} (hgr : gr.Ok) (hgz : gz.Ok) {dt : ℝ} {u v p a m b c p' : V3} {lives : Prop}
    (hdt : 0 < dt) (hcr : LIGHT_SPEED * dt ≤ 3 / 4 * gr.d) (hcz : LIGHT_SPEED * dt ≤ 3 / 4 * gz.d) (hv : VelocityR u v)
    (s1 : HalfStepR dt v p a) (b1 : BackR a m) (s2 : HalfStepR dt v m b) (rf : ReflectR bunch gr gz b c lives) (b2 : BackR c p')
    (hl : lives) (hr : HomeR gr p.c0) (hp : p.c1 = 0) (hz : HomeR gz p.c2) : |c.c1 / p'.c0| ≤ 0.8 := by
  obtain ⟨f0, f1, f2⟩ := first_half hgr hgz hv hdt hcr hcz s1 b1 hr hp hz
  have dr := hgr.d_pos
  have dz := hgz.d_pos
  have szr := hgr.size_ge
  have szz := hgz.size_ge
  have A0 := first_half_abroad hgr hr f0
  obtain ⟨h, hh, t0, t1, t2⟩ := s2
  obtain ⟨-, l0, l1, -⟩ := half_length hgr hv hdt hcr hh
  have m0 : 0 ≤ m.c0 := by linarith [A0.1]
  have e0 := abs_le.1 (half_near hgr (by rw [abs_of_nonneg m0]; linarith [A0.2]) l0 t0)
  have e1 := abs_le.1 (half_near hgr (by rw [f1, abs_zero]; linarith) l1 t1)
  rw [f1, zero_add] at e1
  have k0 := abs_le.1 l0
  have k1 := abs_le.1 l1
  have f0' := abs_le.1 f0
  obtain ⟨x, z, L1, L2, w1, w2, n1, n2, c1, hL⟩ := rf
  obtain ⟨hL1, hL2⟩ := hL.1 hl
  obtain ⟨r1, r2, r3, r4⟩ := wall_home hgr hr (by rw [abs_le]; constructor <;> linarith [e0.1, e0.2, k0.1, k0.2, f0'.1, f0'.2]) w1 hL1 n1
  obtain ⟨q0, -, -⟩ := b2
  have hy : |c.c1| ≤ 0.3753 * gr.d := by
    rw [c1, abs_le]
    constructor <;> linarith [e1.1, e1.2, k1.1, k1.2]
  obtain ⟨H, N⟩ := back_home hgr r1 r2 hy q0 r3 r4
  have hr0 : 0 < p'.c0 := by linarith [H.1]
  rw [abs_div, abs_of_pos hr0, div_le_iff₀ hr0]
  linarith [H.1]

/-- One cycle, in terms of momenta -/
theorem cycle_mom {bunch : Bool} {gr gz : GridR} (hgr : gr.Ok) (hgz : gz.Ok) {dt : ℝ} (hdt : 0 < dt)
    (hcr : LIGHT_SPEED * dt ≤ 3 / 4 * gr.d) (hcz : LIGHT_SPEED * dt ≤ 3 / 4 * gz.d) {e b p v p' v' : V3} {lives : Prop}
    (h : CycleR bunch gr gz dt e b p v p' v' lives) (hl : lives) (hr : HomeR gr p.c0) (hp : p.c1 = 0) (hz : HomeR gz p.c2)
    {M : ℝ} (hβ1 : v.len / LIGHT_SPEED < 1) (hM1 : 1 ≤ M)
    (hM : mom (v.len / LIGHT_SPEED) + 2 * (e.len / LIGHT_SPEED) ≤ M) (hM2 : EPS * M ^ 2 ≤ 1 / 2 ^ 12) :
    v'.len / LIGHT_SPEED < 1 ∧
      mom (v'.len / LIGHT_SPEED) ≤ mom (v.len / LIGHT_SPEED) + 2 * (e.len / LIGHT_SPEED) + 1024 * EPS * M ^ 3 := by
  obtain ⟨u, v1, v2, a, m, hh, c, hpush, s1, b1, s2, rf, b2, sg, bv⟩ := h
  obtain ⟨y, hy0, hyM, hs, hv1⟩ := push_mom hpush hβ1 rfl hM1 hM hM2
  obtain ⟨g, u1, u2, g', b', u3, -, -, -, -, -, -, -, hv⟩ := hpush
  have sine := cycle_sine hgr hgz hdt hcr hcz hv s1 b1 s2 rf b2 hl hr hp hz
  have hb := back_len bv sine
  rw [signs_len sg] at hb
  have hc := c_pos
  have ep := eps_pos'
  have et := eta_pos'
  have et1 := eta_le
  have e1 := e_small
  have hv'0 := len_nonneg v'
  obtain ⟨cc, hce⟩ : ∃ cc, cc = LIGHT_SPEED := ⟨_, rfl⟩
  have hc8 : cc = 3 * 10 ^ 8 := by rw [hce, c_val]
  rw [← hce] at hv1 hc hM hβ1 hyM ⊢
  have hvb : v'.len / cc ≤ spd y * (1 + 100 * EPS) := by
    have a1 := (abs_le.1 hb).2
    have a2 : v'.len / cc ≤ v1.len / cc * (1 + 8 * EPS) + 2 * ETA := by
      rw [div_le_iff₀ hc]
      have e : (v1.len / cc * (1 + 8 * EPS) + 2 * ETA) * cc = v1.len + 8 * EPS * v1.len + 2 * ETA * cc := by field_simp
      rw [e]
      have : 2 * ETA ≤ 2 * ETA * cc := by rw [hc8]; linarith
      linarith
    have a3 := len_nonneg v1
    obtain ⟨A, hA⟩ : ∃ A, A = v1.len / cc := ⟨_, rfl⟩
    obtain ⟨B, hB⟩ : ∃ B, B = spd y := ⟨_, rfl⟩
    rw [← hA] at a2 hv1
    rw [← hB] at hv1 hs ⊢
    clear hM2 hM hyM
    rw [eps_val] at a2 hv1 hs ⊢
    norm_num at a2 hv1 hs et1 ⊢
    linarith
  obtain ⟨x, hx⟩ : ∃ x, x = mom (v.len / cc) + 2 * (e.len / cc) := ⟨_, rfl⟩
  rw [← hx] at hM hyM ⊢
  have hx0 : 0 ≤ x := by
    rw [hx]
    have := mom_nonneg (div_nonneg (len_nonneg v) hc.le)
    have := div_nonneg (len_nonneg e) hc.le
    linarith
  have hM3 : EPS * M ^ 3 ≤ M * (1 / 2 ^ 12) := by
    calc EPS * M ^ 3 = M * (EPS * M ^ 2) := by ring
      _ ≤ M * (1 / 2 ^ 12) := by gcongr
  have hyM' : y ≤ 1.01 * M := by
    norm_num at hM3 ⊢
    linarith
  have hy2 : 1 + y ^ 2 ≤ 2.03 * M ^ 2 := by
    have : y ^ 2 ≤ (1.01 * M) ^ 2 := by gcongr
    nlinarith
  obtain ⟨E, hE⟩ : ∃ E, E = EPS * M ^ 2 := ⟨_, rfl⟩
  have hsm : 300 * EPS * (1 + y ^ 2) ≤ 609 * E := by
    calc 300 * EPS * (1 + y ^ 2) ≤ 300 * EPS * (2.03 * M ^ 2) := by gcongr
      _ = 609 * E := by rw [hE]; ring
  rw [← hE] at hM2
  obtain ⟨r1, r2⟩ := mom_bound hy0 (div_nonneg hv'0 hc.le) hvb (by norm_num at hM2 ⊢; linarith)
  refine ⟨r1, r2.trans ?_⟩
  have k1 : y * (300 * EPS * (1 + y ^ 2)) ≤ 1.01 * M * (609 * E) := by
    apply mul_le_mul hyM' hsm (by positivity) (by linarith)
  have k2 : 1.01 * M * (609 * E) = 615.09 * (EPS * M ^ 3) := by rw [hE]; ring
  have k3 : y * (1 + 300 * EPS * (1 + y ^ 2)) = y + y * (300 * EPS * (1 + y ^ 2)) := by ring
  have k4 : 0 ≤ EPS * M ^ 3 := by positivity
  rw [k3]
  linarith

/-- The positions of a run with velocities are those of a run of C101. -/
theorem runs_home {bunch : Bool} {gr gz : GridR} (hgr : gr.Ok) (hgz : gz.Ok) {dt : ℝ} (hdt : 0 < dt)
    (hcr : LIGHT_SPEED * dt ≤ 3 / 4 * gr.d) (hcz : LIGHT_SPEED * dt ≤ 3 / 4 * gz.d) {e b : ℕ → V3} {p0 v0 : V3}
    (hr : StartR gr p0.c0) (hp : p0.c1 = 0) (hz : StartR gz p0.c2) {n : ℕ} {p v : V3} (h : RunsR bunch gr gz dt e b p0 v0 n p v) :
    HomeR gr p.c0 ∧ p.c1 = 0 ∧ HomeR gz p.c2 := by
  have : ReachesR bunch gr gz dt p0 n p := by
    induction h with
    | start => exact .start
    | step n p v p' v' lives _ hc hl ih =>
      obtain ⟨m, hm⟩ := cycle_moved hc
      exact .step n p m p' lives ih hm hl
  exact reaches_home hgr hgz hdt hcr hcz hr hp hz this

theorem runs_mom {bunch : Bool} {gr gz : GridR} (hgr : gr.Ok) (hgz : gz.Ok) {dt : ℝ} (hdt : 0 < dt)
    (hcr : LIGHT_SPEED * dt ≤ 3 / 4 * gr.d) (hcz : LIGHT_SPEED * dt ≤ 3 / 4 * gz.d) {e b : ℕ → V3} {p0 v0 : V3}
    (hr : StartR gr p0.c0) (hp : p0.c1 = 0) (hz : StartR gz p0.c2) {G : ℝ} (hG : 1 ≤ G) {N : ℕ} (hN : ((N : ℝ) + 1) * G ^ 2 ≤ 2 ^ 34)
    (hv : v0.len < LIGHT_SPEED) (hE : mom (v0.len / LIGHT_SPEED) + ∑ k ∈ Finset.range N, 2 * ((e k).len / LIGHT_SPEED) ≤ G)
    {n : ℕ} (hn : n ≤ N) {p v : V3} (h : RunsR bunch gr gz dt e b p0 v0 n p v) :
    v.len / LIGHT_SPEED < 1 ∧ mom (v.len / LIGHT_SPEED) ≤
      mom (v0.len / LIGHT_SPEED) + ∑ k ∈ Finset.range n, 2 * ((e k).len / LIGHT_SPEED) + n * (1024 * EPS * (2 * G) ^ 3) := by
  have hc := c_pos
  have ep := eps_pos'
  induction h with
  | start => exact ⟨by rwa [div_lt_one hc], by simp⟩
  | step n p v p' v' lives hs hcy hl ih =>
    obtain ⟨i1, i2⟩ := ih (by omega)
    obtain ⟨H0, H1, H2⟩ := runs_home hgr hgz hdt hcr hcz hr hp hz hs
    have hsum : ∑ k ∈ Finset.range (n + 1), 2 * ((e k).len / LIGHT_SPEED) ≤ ∑ k ∈ Finset.range N, 2 * ((e k).len / LIGHT_SPEED) := by
      apply Finset.sum_le_sum_of_subset_of_nonneg
      · intro i hi
        simp at hi ⊢
        omega
      · intro i _ _
        exact mul_nonneg (by norm_num) (div_nonneg (len_nonneg _) hc.le)
    have hnN : (n : ℝ) ≤ N := by exact_mod_cast (by omega : n ≤ N)
    have hG2 : G ^ 2 ≤ 2 ^ 34 := by
      have : 1 * G ^ 2 ≤ ((N : ℝ) + 1) * G ^ 2 := by gcongr; linarith [(Nat.cast_nonneg N : (0 : ℝ) ≤ N)]
      linarith
    have herr : (n : ℝ) * (1024 * EPS * (2 * G) ^ 3) ≤ G := by
      have a1 : (n : ℝ) * G ^ 2 ≤ 2 ^ 34 := by
        calc (n : ℝ) * G ^ 2 ≤ ((N : ℝ) + 1) * G ^ 2 := by gcongr; linarith
          _ ≤ _ := hN
      calc (n : ℝ) * (1024 * EPS * (2 * G) ^ 3) = ((n : ℝ) * G ^ 2) * (8192 * EPS) * G := by ring
        _ ≤ 2 ^ 34 * (8192 * EPS) * G := by gcongr
        _ ≤ G := by
          rw [eps_val]
          norm_num
          linarith
    rw [Finset.sum_range_succ] at hsum ⊢
    have hM : mom (v.len / LIGHT_SPEED) + 2 * ((e n).len / LIGHT_SPEED) ≤ 2 * G := by linarith
    obtain ⟨j1, j2⟩ := cycle_mom hgr hgz hdt hcr hcz hcy hl H0 H1 H2 i1 (by linarith) hM (by
      calc EPS * (2 * G) ^ 2 = 4 * EPS * G ^ 2 := by ring
        _ ≤ 4 * EPS * 2 ^ 34 := by gcongr
        _ ≤ 1 / 2 ^ 12 := by rw [eps_val]; norm_num)
    refine ⟨j1, ?_⟩
    push_cast
    linarith

/-- The computed factor -/
theorem gamma_near {v : V3} (hv : 1 / 2 ^ 39 ≤ 1 - (v.len / LIGHT_SPEED) ^ 2) {γ : ℝ} (hγ : γ = 1 / √(1 - (v.len / LIGHT_SPEED) ^ 2))
    {out : Option ℝ} (h : VelocityGammaR v out) : ∃ g, out = some g ∧ |g - γ| ≤ 8 * EPS * γ ^ 2 * γ := by
  have hc := c_pos
  have ep := eps_pos'
  have hs := snap_len v
  have hW0 := len_nonneg (snap v)
  have hV0 := len_nonneg v
  obtain ⟨B, hB⟩ : ∃ B, B = v.len / LIGHT_SPEED := ⟨_, rfl⟩
  obtain ⟨b, hb⟩ : ∃ b, b = (snap v).len / LIGHT_SPEED := ⟨_, rfl⟩
  rw [← hB] at hv hγ
  have hB0 : 0 ≤ B := by rw [hB]; positivity
  have hb0 : 0 ≤ b := by rw [hb]; positivity
  have hB1 : B < 1 := by norm_num at hv; nlinarith
  have hbB : b ≤ B := by rw [hb, hB]; gcongr; exact hs.1
  have hBb : B - b ≤ EPS / 1000 := by
    have : B - b = (v.len - (snap v).len) / LIGHT_SPEED := by rw [hB, hb]; ring
    rw [this, div_le_iff₀ hc, c_val, eps_val]
    have := hs.2
    norm_num at this ⊢
    linarith
  have hqq : |(1 - b ^ 2) - (1 - B ^ 2)| ≤ EPS / 500 := by
    rw [abs_le]
    constructor <;> nlinarith
  obtain ⟨d, g, ho, hd, hdq, hg⟩ := gamma_value rfl (by
    rw [← hb]
    have := (abs_le.1 hqq).1
    rw [eps_val] at this
    norm_num at this hv ⊢
    linarith) h
  rw [← hb] at hdq
  refine ⟨g, ho, ?_⟩
  obtain ⟨q, hq⟩ : ∃ q, q = 1 - B ^ 2 := ⟨_, rfl⟩
  rw [← hq] at hqq hv hγ
  have hq0 : 0 < q := by norm_num at hv; linarith
  have hq1 : q ≤ 1 := by rw [hq]; nlinarith
  have hγ2 : γ ^ 2 = 1 / q := by rw [hγ, div_pow, Real.sq_sqrt hq0.le, one_pow]
  have hγ0 : 0 < γ := by rw [hγ]; positivity
  have hγ1 : 1 ≤ γ ^ 2 := by rw [hγ2, le_div_iff₀ hq0]; linarith
  have hdd : |d - q| ≤ (5.01 * EPS * γ ^ 2) * q := by
    have e : (5.01 * EPS * γ ^ 2) * q = 5.01 * EPS := by rw [hγ2]; field_simp
    rw [e]
    have a : d - q = (d - (1 - b ^ 2)) + ((1 - b ^ 2) - q) := by ring
    rw [a]
    refine (abs_add_le _ _).trans ?_
    linarith
  have hδ : 5.01 * EPS * γ ^ 2 ≤ 1 / 4 := by
    rw [hγ2, mul_one_div, div_le_iff₀ hq0, eps_val]
    norm_num at hv ⊢
    linarith
  obtain ⟨-, hi⟩ := inv_sqrt_near hq0 (by positivity) hδ hdd
  rw [← hγ] at hi
  have hi' := abs_le.1 hi
  have hg' := abs_le.1 hg
  obtain ⟨D, hD⟩ : ∃ D, D = 1 / √d := ⟨_, rfl⟩
  rw [← hD] at hi' hg'
  have k1 : EPS * D ≤ EPS * (1.25 * γ) := by
    gcongr
    nlinarith
  have k2 : EPS * (1.25 * γ) ≤ 1.25 * EPS * γ ^ 2 * γ := by
    calc EPS * (1.25 * γ) = 1.25 * EPS * 1 * γ := by ring
      _ ≤ 1.25 * EPS * γ ^ 2 * γ := by gcongr
  have k3 : 0 ≤ EPS * γ ^ 2 * γ := by positivity
  rw [abs_le]
  constructor <;> linarith

end RoundedPush

open RoundedPush

/-- Momentum per mass of a velocity, in units of the speed of light -/
noncomputable def momentumOf (v : V3) : ℝ := v.len / LIGHT_SPEED / √(1 - (v.len / LIGHT_SPEED) ^ 2)

/-- Lorentz factor of a velocity -/
noncomputable def lorentzOf (v : V3) : ℝ := 1 / √(1 - (v.len / LIGHT_SPEED) ^ 2)

/-- **C108** With the arithmetic of the machine, a macroparticle is slower than light in every cycle, its Lorentz factor is computed,
and has a relative error of at most `8 EPS γ²`: the run is not stopped by `get_gamma`, and the replacement `1e100` is not used.  The
momentum is at most twice what the electric forces could give it.

Partial: the relativistic pusher of Boris; the momentum `G` that the forces could give (in units of the speed of light) and the
number of cycles are limited by `N G² ≤ 2^34` (for instance ten million cycles with `G = 40`, a million with `G = 130`). -/
theorem C108_history_partial {bunch : Bool} {gr gz : GridR} (hgr : gr.Ok) (hgz : gz.Ok) {dt : ℝ} (hdt : 0 < dt)
    (hcr : LIGHT_SPEED * dt ≤ 3 / 4 * gr.d) (hcz : LIGHT_SPEED * dt ≤ 3 / 4 * gz.d) {e b : ℕ → V3} {p0 v0 : V3}
    (hr : StartR gr p0.c0) (hp : p0.c1 = 0) (hz : StartR gz p0.c2) {G : ℝ} (hG : 1 ≤ G) {N : ℕ} (hN : ((N : ℝ) + 1) * G ^ 2 ≤ 2 ^ 34)
    (hv : v0.len < LIGHT_SPEED) (hE : momentumOf v0 + ∑ k ∈ Finset.range N, 2 * ((e k).len / LIGHT_SPEED) ≤ G)
    {n : ℕ} (hn : n ≤ N) {p v : V3} (h : RunsR bunch gr gz dt e b p0 v0 n p v) :
    v.len < LIGHT_SPEED ∧ momentumOf v ≤ 2 * G ∧
      ∀ out, VelocityGammaR v out → ∃ g, out = some g ∧ |g - lorentzOf v| ≤ 8 * EPS * lorentzOf v ^ 2 * lorentzOf v := by
  have hc := c_pos
  have ep := eps_pos'
  obtain ⟨h1, h2⟩ := runs_mom hgr hgz hdt hcr hcz hr hp hz hG hN hv hE hn h
  have hV0 : 0 ≤ v.len / LIGHT_SPEED := div_nonneg (len_nonneg v) hc.le
  have hnN : (n : ℝ) ≤ N := by exact_mod_cast hn
  have hm : momentumOf v ≤ 2 * G := by
    have hsum : ∑ k ∈ Finset.range n, 2 * ((e k).len / LIGHT_SPEED) ≤ ∑ k ∈ Finset.range N, 2 * ((e k).len / LIGHT_SPEED) := by
      apply Finset.sum_le_sum_of_subset_of_nonneg
      · intro i hi
        simp at hi ⊢
        omega
      · intro i _ _
        exact mul_nonneg (by norm_num) (div_nonneg (len_nonneg _) hc.le)
    have herr : (n : ℝ) * (1024 * EPS * (2 * G) ^ 3) ≤ G := by
      have a1 : (n : ℝ) * G ^ 2 ≤ 2 ^ 34 := by
        calc (n : ℝ) * G ^ 2 ≤ ((N : ℝ) + 1) * G ^ 2 := by gcongr; linarith
          _ ≤ _ := hN
      calc (n : ℝ) * (1024 * EPS * (2 * G) ^ 3) = ((n : ℝ) * G ^ 2) * (8192 * EPS) * G := by ring
        _ ≤ 2 ^ 34 * (8192 * EPS) * G := by gcongr
        _ ≤ G := by
          rw [eps_val]
          norm_num
          linarith
    have e1 : momentumOf v0 = mom (v0.len / LIGHT_SPEED) := rfl
    have e2 : momentumOf v = mom (v.len / LIGHT_SPEED) := rfl
    rw [e1] at hE
    rw [e2]
    linarith
  refine ⟨(div_lt_one hc).1 h1, hm, fun out ho => ?_⟩
  have hq : 1 / 2 ^ 39 ≤ 1 - (v.len / LIGHT_SPEED) ^ 2 := by
    rw [one_add_mom hV0 h1]
    apply one_div_le_one_div_of_le (by positivity)
    have a1 : mom (v.len / LIGHT_SPEED) ^ 2 ≤ (2 * G) ^ 2 := by
      have := mom_nonneg hV0
      have : mom (v.len / LIGHT_SPEED) ≤ 2 * G := hm
      gcongr
    have a2 : G ^ 2 ≤ 2 ^ 34 := by
      have : 1 * G ^ 2 ≤ ((N : ℝ) + 1) * G ^ 2 := by gcongr; linarith [(Nat.cast_nonneg N : (0 : ℝ) ≤ N)]
      linarith
    norm_num at a2 ⊢
    nlinarith
  exact gamma_near hq rfl ho

/-- **C108** Without electric field, whatever the magnetic field, the computed speed stays that of the start up to a part in
`2^41` of the speed of light per cycle.

Partial: the relativistic pusher of Boris; speeds for which this does not lead to that of light. -/
theorem C108_speed_partial {bunch : Bool} {gr gz : GridR} (hgr : gr.Ok) (hgz : gz.Ok) {dt : ℝ} (hdt : 0 < dt)
    (hcr : LIGHT_SPEED * dt ≤ 3 / 4 * gr.d) (hcz : LIGHT_SPEED * dt ≤ 3 / 4 * gz.d) {b : ℕ → V3} {p0 v0 : V3}
    (hr : StartR gr p0.c0) (hp : p0.c1 = 0) (hz : StartR gz p0.c2) {N : ℕ}
    (hN : ((N : ℝ) + 1) / 2 ^ 38 ≤ 1 - (v0.len / LIGHT_SPEED) ^ 2)
    {n : ℕ} (hn : n ≤ N) {p v : V3} (h : RunsR bunch gr gz dt (fun _ => V3.zero) b p0 v0 n p v) :
    |v.len - v0.len| ≤ n / 2 ^ 41 * LIGHT_SPEED := by
  have hc := c_pos
  have ep := eps_pos'
  have et := eta_pos'
  have et1 := eta_le
  induction h with
  | start => simp
  | step n p v p' v' lives hs hcy hl ih =>
    have ih := ih (by omega)
    obtain ⟨H0, H1, H2⟩ := runs_home hgr hgz hdt hcr hcz hr hp hz hs
    obtain ⟨u, v1, v2, a, m, hh, c, hpush, s1, b1, s2, rf, b2, sg, bv⟩ := hcy
    have hnN : (n : ℝ) + 1 ≤ N := by exact_mod_cast hn
    have hn0 : (0 : ℝ) ≤ n := Nat.cast_nonneg n
    have hV0 := len_nonneg v
    have hV00 := len_nonneg v0
    have hc8 := c_val
    obtain ⟨cc, hce⟩ : ∃ cc, cc = LIGHT_SPEED := ⟨_, rfl⟩
    have hq : 1 / 2 ^ 40 ≤ 1 - (v.len / LIGHT_SPEED) ^ 2 := by
      rw [← hce] at hN ih hc ⊢
      obtain ⟨B, hB⟩ : ∃ B, B = v.len / cc := ⟨_, rfl⟩
      obtain ⟨B0, hB0⟩ : ∃ B0, B0 = v0.len / cc := ⟨_, rfl⟩
      have hB' : 0 ≤ B := by rw [hB]; positivity
      have hB0' : 0 ≤ B0 := by rw [hB0]; positivity
      rw [← hB0] at hN
      rw [← hB]
      have hBB : B ≤ B0 + n / 2 ^ 41 := by
        have e1 : v.len = B * cc := by rw [hB]; field_simp
        have e2 : v0.len = B0 * cc := by rw [hB0]; field_simp
        rw [e1, e2] at ih
        have : B * cc ≤ (B0 + n / 2 ^ 41) * cc := by linarith [(abs_le.1 ih).2]
        exact le_of_mul_le_mul_right this hc
      obtain ⟨t, ht⟩ : ∃ t : ℝ, t = n / 2 ^ 41 := ⟨_, rfl⟩
      have ht0 : 0 ≤ t := by rw [ht]; positivity
      have htN : 8 * t + 1 / 2 ^ 38 ≤ 1 - B0 ^ 2 := by
        have : 8 * t + 1 / 2 ^ 38 ≤ ((N : ℝ) + 1) / 2 ^ 38 := by
          rw [ht]
          norm_num
          linarith
        linarith
      have hB01 : B0 ≤ 1 := by
        norm_num at htN
        nlinarith
      have ht1 : t ≤ 1 := by
        norm_num at htN
        nlinarith
      rw [← ht] at hBB
      have : B ^ 2 ≤ (B0 + t) ^ 2 := by gcongr
      norm_num at htN ⊢
      nlinarith
    have l1 := push_speed hpush hq
    obtain ⟨g, u1, u2, g', b', u3, -, -, -, -, -, -, -, hv⟩ := hpush
    have sine := cycle_sine hgr hgz hdt hcr hcz hv s1 b1 s2 rf b2 hl H0 H1 H2
    have l2 := back_len bv sine
    rw [signs_len sg] at l2
    have hvb := velocity_bound hv
    have hv1 : v1.len ≤ 1.000001 * LIGHT_SPEED := by
      unfold V3.len
      rw [Real.sqrt_le_left (by positivity)]
      unfold V3.sq
      linarith
    have l3 : |v'.len - v.len| ≤ 1 / 2 ^ 41 * LIGHT_SPEED := by
      have a1 := abs_le.1 l1
      have a2 := abs_le.1 l2
      have a3 : 8 * EPS * v1.len ≤ 8 * EPS * (1.000001 * LIGHT_SPEED) := by gcongr
      rw [hc8] at a1 a3 ⊢
      rw [eps_val] at a1 a2 a3
      norm_num at a1 a2 a3 et1 ⊢
      rw [abs_le]
      constructor <;> linarith
    have e : v'.len - v0.len = (v'.len - v.len) + (v.len - v0.len) := by ring
    rw [e]
    refine (abs_add_le _ _).trans ?_
    push_cast
    linarith

end Verif
