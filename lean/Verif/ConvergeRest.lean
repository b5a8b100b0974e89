import Verif.ConvergeProps
import Mathlib.Analysis.Calculus.ContDiff.Basic
import Mathlib.Analysis.Calculus.Deriv.Pow
import Mathlib.Analysis.Calculus.Deriv.Mul
import Mathlib.Analysis.Calculus.Deriv.Add

/-!
# Convergence of the field solver from the start of the program (C96)

The program starts with all fields zero, the magnetic field as well, although its first value belongs to the time
`-dt/2`. For a solution that vanishes at time `0` this costs an error of second order only.
-/

namespace Verif

open Finset

/-! ## Specification -/

/-- there are no fields in the cylinder at time `0` -/
def Wave.StartsAtRest (W : Wave) (R Z : ℝ) : Prop :=
  ∀ a, isField a → ∀ r z, 0 ≤ r → r ≤ R → 0 ≤ z → z ≤ Z → W.f a (0, r, z) = 0

/-! ## Helpers -/

theorem deriv_zero_inside {u : ℝ → ℝ} {L x : ℝ} (h : ∀ s, 0 ≤ s → s ≤ L → u s = 0) (h0 : 0 < x) (h1 : x < L) :
    deriv u x = 0 := by
  have : u =ᶠ[nhds x] fun _ => 0 := by
    filter_upwards [Ioo_mem_nhds h0 h1] with s hs
    exact h s hs.1.le hs.2.le
  rw [this.deriv_eq]; simp

/-- a magnetic component half a step before a start at rest -/
theorem half_step_before {u : E3 → ℝ} {M T R Z r z dt : ℝ} (h : Bd u M T R Z) (hdt : 0 ≤ dt) (hT : dt ≤ T)
    (r0 : 0 ≤ r) (r1 : r ≤ R) (z0 : 0 ≤ z) (z1 : z ≤ Z) (h0 : u (0, r, z) = 0) (h1 : dT u 0 r z = 0) :
    |u (-(dt / 2), r, z)| ≤ |M| * (1 + |T|) * dt ^ 2 := by
  have a := h.aT (t := 0) (s := dt / 2) (r := r) (z := z) (by linarith) (by linarith) (by linarith) (by linarith) r1 z0 z1
  have b := h.cT (t := 0) (s := dt / 2) (r := r) (z := z) (by linarith) (by linarith) (by linarith) (by linarith) r1 z0 z1
  rw [h0] at a
  rw [h1] at b
  simp only [zero_add, zero_sub, mul_zero, sub_zero] at a b
  have a := abs_le.1 a
  have b := abs_le.1 b
  have hM := le_abs_self M
  have hTT := le_abs_self T
  have M0 := abs_nonneg M
  have c1 : M * (dt / 2) ^ 2 ≤ |M| * (dt / 2) ^ 2 := by gcongr
  have c2 : M / 3 * (dt / 2) ^ 3 ≤ |M| * (|T| * (dt / 2) ^ 2) := by
    have : (dt / 2) ^ 3 ≤ |T| * (dt / 2) ^ 2 := by
      have : dt / 2 ≤ |T| := by linarith
      calc (dt / 2) ^ 3 = dt / 2 * (dt / 2) ^ 2 := by ring
        _ ≤ _ := by gcongr
    calc M / 3 * (dt / 2) ^ 3 ≤ |M| * (dt / 2) ^ 3 := by gcongr; linarith
      _ ≤ _ := by gcongr
  have c3 : |M| * (dt / 2) ^ 2 + |M| * (|T| * (dt / 2) ^ 2) ≤ 2 * (|M| * (1 + |T|) * dt ^ 2) := by
    have : 0 ≤ |M| * (1 + |T|) * dt ^ 2 := by positivity
    have e : |M| * (dt / 2) ^ 2 + |M| * (|T| * (dt / 2) ^ 2) = |M| * (1 + |T|) * dt ^ 2 / 4 := by ring
    linarith
  rw [abs_le]
  constructor <;> linarith

/-! ## C96: from the start of the program -/

/-- **C96** (program start). The fields of a run start at zero. If the solution has no fields at time `0` either, the
error of the run is of second order. -/
theorem C96_from_start (W : Wave) (T R Z A θ : ℝ) (hS : W.Solves T R Z) (hrest : W.StartsAtRest R Z)
    (hA : ∀ r z, 0 ≤ r → r ≤ R → 0 ≤ z → z ≤ Z → |W.eps r z| ≤ A ∧ |W.sig r z| ≤ A)
    (hθ : 0 ≤ θ) (hθ1 : θ < 1) :
    ∃ C : ℝ, ∀ (G : Geom) (dt η δ : ℝ) (tbl : ℤ → ℤ → Option ℝ) (calls : ℕ → List JCall) (n : ℕ) (m m' : Mem Loc),
      G.Valid → G.r_size = R → G.z_size = Z → 0 ≤ dt → dt ≤ T → StepLimit G dt 1 θ → 0 ≤ η → η ≤ 1 → 0 ≤ δ →
      (n : ℝ) * dt ≤ T → Started G tbl m → MediumWithin G W 1 η m →
      (∀ j, j < n → (∀ c ∈ calls j, c.Ok G) ∧ CurrentsWithin G dt W δ j (calls j)) →
      FieldRun G dt calls n m m' →
      errorE G W (n * dt) m' ≤ (C * (dt ^ 2 + G.dr ^ 2 + G.dz ^ 2 + δ + η)) ^ 2 ∧
      errorH G W (n * dt - dt / 2) m' ≤ (C * (dt ^ 2 + G.dr ^ 2 + G.dz ^ 2 + δ + η)) ^ 2 := by
  obtain ⟨C, hC⟩ := C96_convergence W T R Z A 1 θ hS hA one_pos hθ hθ1
  have hm0 := MAGN_CONST_pos
  have hB : ∃ M, 0 ≤ M ∧ Bd (W.f .hr) M T R Z ∧ Bd (W.f .hphi) M T R Z ∧ Bd (W.f .hz) M T R Z := by
    obtain ⟨m4, p4, b4⟩ := Bd.exists (hS.smooth .hr trivial) T R Z
    obtain ⟨m5, p5, b5⟩ := Bd.exists (hS.smooth .hphi trivial) T R Z
    obtain ⟨m6, p6, b6⟩ := Bd.exists (hS.smooth .hz trivial) T R Z
    exact ⟨m4 + m5 + m6, by positivity, b4.mono (by linarith), b5.mono (by linarith), b6.mono (by linarith)⟩
  obtain ⟨M, hM, Br, Bp, Bz⟩ := hB
  refine ⟨|C| * (1 + |M| * (1 + |T|)), ?_⟩
  intro G dt η δ tbl calls n m m' hG hr hz hdt hdT hl hη hη1 hδ hn hst hmed hcalls hrun
  have hF : GridOf G R Z := ⟨hG, hr, hz⟩
  have rep := hst.rep hG
  have t0 : 0 ≤ T := hdt.trans hdT
  have starts : StartsFrom G dt W (|M| * (1 + |T|) * dt ^ 2) m := by
    refine ⟨?_, ?_, rep.agree.wall hG (WallE.setup G _)⟩
    · intro a i k hn
      obtain ⟨r0, r1, z0, z1⟩ := hn.inside hF
      have e1 : fieldsOf m a i k = 0 := by
        have n1 := hG.nr_ge
        rw [agree_at rep.agree a i k (by cases a <;> simp only [ENode] at hn <;> rng)
          (by cases a <;> simp only [ENode] at hn <;> rng) (by cases a <;> simp only [ENode] at hn <;> rng)
          (by cases a <;> simp only [ENode] at hn <;> rng)]
        cases a <;> simp only [ENode] at hn <;> rfl
      have e2 : W.at G 0 a i k = 0 := hrest a hn.field _ _ r0 r1 z0 z1
      rw [e1, e2]; simp only [sub_zero, abs_zero]; positivity
    · intro a i k hn
      obtain ⟨r0, r1, z0, z1⟩ := hn.inside hF
      have e1 : fieldsOf m a i k = 0 := by
        have n1 := hG.nr_ge
        rw [agree_at rep.agree a i k (by cases a <;> simp only [HNode] at hn <;> rng)
          (by cases a <;> simp only [HNode] at hn <;> rng) (by cases a <;> simp only [HNode] at hn <;> rng)
          (by cases a <;> simp only [HNode] at hn <;> rng)]
        cases a <;> simp only [HNode] at hn <;> rfl
      rw [e1, zero_sub, abs_neg]
      have hv : W.f a (0, arrR G a i, arrZ G a k) = 0 := hrest a hn.field _ _ r0 r1 z0 z1
      have dr := hG.dr_pos
      have dz := hG.dz_pos
      have rin : ∀ x : ℤ, 0 ≤ x → x < (G.nr : ℤ) - 1 → 0 < ((x:ℝ) + 1 / 2) * G.dr ∧ ((x:ℝ) + 1 / 2) * G.dr < R := by
        intro x h0 h1
        have h0' : (0:ℝ) ≤ x := by exact_mod_cast h0
        have h1' := cast_lt_nat h1
        refine ⟨by positivity, ?_⟩
        have := hF.r_le (x := (x:ℝ) + 1) (by
          have h2 : x + 1 ≤ (G.nr : ℤ) - 1 := by omega
          have h3 : ((x + 1 : ℤ) : ℝ) ≤ (((G.nr : ℤ) - 1 : ℤ) : ℝ) := Int.cast_le.2 h2
          push_cast at h3; linarith)
        nlinarith
      have zin : ∀ x : ℤ, 0 ≤ x → x < (G.nz : ℤ) - 1 → 0 < ((x:ℝ) + 1 / 2) * G.dz ∧ ((x:ℝ) + 1 / 2) * G.dz < Z := by
        intro x h0 h1
        have h0' : (0:ℝ) ≤ x := by exact_mod_cast h0
        refine ⟨by positivity, ?_⟩
        have := hF.z_le (x := (x:ℝ) + 1) (by
          have h2 : x + 1 ≤ (G.nz : ℤ) - 1 := by omega
          have h3 : ((x + 1 : ℤ) : ℝ) ≤ (((G.nz : ℤ) - 1 : ℤ) : ℝ) := Int.cast_le.2 h2
          push_cast at h3; linarith)
        nlinarith
      cases a <;> simp only [HNode] at hn
      · -- hr
        obtain ⟨zi, zi'⟩ := zin k hn.2.2.1 hn.2.2.2
        refine half_step_before Br hdt hdT r0 r1 z0 z1 hv ?_
        have f := hS.faraday_r 0 (arrR G .hr i) (arrZ G .hr k) le_rfl t0 r0 r1 z0 z1
        have d : dZ (W.f .ephi) 0 (arrR G .hr i) (arrZ G .hr k) = 0 :=
          deriv_zero_inside (fun s h0 h1 => hrest .ephi trivial _ s r0 r1 h0 h1) zi zi'
        rw [d] at f
        exact (mul_eq_zero.1 f).resolve_left hm0.ne'
      · -- hphi
        obtain ⟨zi, zi'⟩ := zin k hn.2.2.1 hn.2.2.2
        obtain ⟨ri, ri'⟩ := rin i hn.1 hn.2.1
        refine half_step_before Bp hdt hdT r0 r1 z0 z1 hv ?_
        have f := hS.faraday_phi 0 (arrR G .hphi i) (arrZ G .hphi k) le_rfl t0 r0 r1 z0 z1
        have d : dZ (W.f .er) 0 (arrR G .hphi i) (arrZ G .hphi k) = 0 :=
          deriv_zero_inside (fun s h0 h1 => hrest .er trivial _ s r0 r1 h0 h1) zi zi'
        have d' : dR (W.f .ez) 0 (arrR G .hphi i) (arrZ G .hphi k) = 0 :=
          deriv_zero_inside (fun s h0 h1 => hrest .ez trivial s _ h0 h1 z0 z1) ri ri'
        rw [d, d', sub_zero] at f
        exact (mul_eq_zero.1 f).resolve_left hm0.ne'
      · -- hz
        obtain ⟨ri, ri'⟩ := rin i hn.1 hn.2.1
        refine half_step_before Bz hdt hdT r0 r1 z0 z1 hv ?_
        have f := hS.faraday_z 0 (arrR G .hz i) (arrZ G .hz k) le_rfl t0 ri r1 z0 z1
        have d' : dR (W.f .ephi) 0 (arrR G .hz i) (arrZ G .hz k) = 0 :=
          deriv_zero_inside (fun s h0 h1 => hrest .ephi trivial s _ h0 h1 z0 z1) ri ri'
        rw [d', hrest .ephi trivial _ _ r0 r1 z0 z1] at f
        simp only [zero_div, add_zero, neg_zero] at f
        exact (mul_eq_zero.1 f).resolve_left hm0.ne'
  obtain ⟨h1, h2⟩ := hC G dt η δ (|M| * (1 + |T|) * dt ^ 2) calls n m m' hG hr hz hdt hl hη hη1 hδ (by positivity) hn
    rep.initialised starts hmed hcalls hrun
  obtain ⟨Q, hQ⟩ : ∃ Q, Q = |M| * (1 + |T|) := ⟨_, rfl⟩
  rw [← hQ] at h1 h2 ⊢
  have Q0 : 0 ≤ Q := by rw [hQ]; positivity
  have e : (C * (dt ^ 2 + G.dr ^ 2 + G.dz ^ 2 + δ + η + Q * dt ^ 2)) ^ 2 ≤
      (|C| * (1 + Q) * (dt ^ 2 + G.dr ^ 2 + G.dz ^ 2 + δ + η)) ^ 2 := by
    rw [← sq_abs, abs_mul, abs_of_nonneg (by positivity : 0 ≤ dt ^ 2 + G.dr ^ 2 + G.dz ^ 2 + δ + η + Q * dt ^ 2)]
    refine pow_le_pow_left₀ (by positivity) ?_ 2
    rw [mul_assoc]
    refine mul_le_mul_of_nonneg_left ?_ (abs_nonneg C)
    have : 0 ≤ Q * (G.dr ^ 2 + G.dz ^ 2 + δ + η) := by positivity
    nlinarith
  exact ⟨h1.trans e, h2.trans e⟩

/-! ## The hypotheses can be met -/

/-- a solution with `Ez = t² (1 - r²)` in the cylinder of radius and length 1: a growing field along the axis, the
magnetic field around it and the current that drives both -/
noncomputable def demoWave : Wave where
  f
    | .ez, p => p.1 ^ 2 * (1 - p.2.1 ^ 2)
    | .hphi, p => -(2 * p.2.1 * p.1 ^ 3 / (3 * MAGN_CONST))
    | .jz, p => -(4 * p.1 ^ 3 / (3 * MAGN_CONST)) - EPSILON0 * (2 * p.1 * (1 - p.2.1 ^ 2))
    | _, _ => 0
  eps := fun _ _ => 1
  sig := fun _ _ => 0

theorem demoWave_solves (T : ℝ) : demoWave.Solves T 1 1 := by
  have hm0 := MAGN_CONST_pos
  have z1 : ∀ t r z, dT (fun _ => (0:ℝ)) t r z = 0 := fun t r z => by simp [dT]
  have z2 : ∀ t r z, dR (fun _ => (0:ℝ)) t r z = 0 := fun t r z => by simp [dR]
  have z3 : ∀ t r z, dZ (fun _ => (0:ℝ)) t r z = 0 := fun t r z => by simp [dZ]
  have ezt : ∀ t r z, dT (demoWave.f .ez) t r z = 2 * t * (1 - r ^ 2) := by
    intro t r z
    simp [dT, demoWave]
  have ezr : ∀ t r z, dR (demoWave.f .ez) t r z = t ^ 2 * (-(2 * r)) := by
    intro t r z
    simp [dR, demoWave]
  have ht : ∀ t r z, dT (demoWave.f .hphi) t r z = -(2 * r * (3 * t ^ 2) / (3 * MAGN_CONST)) := by
    intro t r z
    simp [dT, demoWave]
  have hr : ∀ t r z, dR (demoWave.f .hphi) t r z = -(2 * t ^ 3 / (3 * MAGN_CONST)) := by
    intro t r z
    simp [dR, demoWave]
  have hz : ∀ t r z, dZ (demoWave.f .hphi) t r z = 0 := by
    intro t r z; simp [dZ, demoWave]
  constructor
  · intro a ha
    cases a <;> simp only [isField] at ha <;> simp only [demoWave] <;> fun_prop
  · intros; simp [demoWave]
  · intros; simp only [demoWave]; ring
  · intro t r z _ _ _ _ _ _
    rw [show demoWave.f .hr = fun _ => 0 from rfl, show demoWave.f .ephi = fun _ => 0 from rfl, z1, z3]; simp
  · intro t r z _ _ _ _ _ _
    rw [show demoWave.f .er = fun _ => 0 from rfl, z3, ht, ezr]; field_simp; ring
  · intro t r z _ _ _ _ _ _
    rw [show demoWave.f .hz = fun _ => 0 from rfl, show demoWave.f .ephi = fun _ => 0 from rfl, z1, z2]; simp
  · intro t r z _ _ _ _ _ _
    rw [show demoWave.f .er = fun _ => 0 from rfl, z1, hz]; simp [demoWave]
  · intro t r z _ _ _ _ _ _
    rw [show demoWave.f .ephi = fun _ => 0 from rfl, show demoWave.f .hr = fun _ => 0 from rfl,
      show demoWave.f .hz = fun _ => 0 from rfl, z1, z2, z3]; simp [demoWave]
  · intro t r z _ _ h _ _ _
    rw [ezt, hr]; simp only [demoWave]; field_simp; ring
  · intro t z _ _ _ _
    rw [ezt, hr]; simp only [demoWave]; field_simp; ring
  · intros; exact ⟨rfl, rfl⟩
  · intros; exact ⟨rfl, rfl⟩
  · intros; rfl
  · intros; simp [demoWave]

/-- the currents of `demoWave`, one deposit for each node -/
noncomputable def waveCalls (G : Geom) (dt : ℝ) (j : ℕ) : List JCall :=
  (Ico (0:ℤ) (G.nr - 1) ×ˢ Ico (0:ℤ) (G.nz - 1)).toList.map
    fun p => ⟨.jz, p.1, p.2, demoWave.at G (((j : ℝ) + 1 / 2) * dt) .jz p.1 p.2⟩

theorem waveCalls_ok (G : Geom) (dt : ℝ) (j : ℕ) : ∀ c ∈ waveCalls G dt j, c.Ok G := by
  intro c hc
  simp only [waveCalls, List.mem_map, mem_toList, mem_product, mem_Ico] at hc
  obtain ⟨p, ⟨⟨h1, h2⟩, h3, h4⟩, rfl⟩ := hc
  exact ⟨Or.inr (Or.inr rfl), h1, by dsimp only; omega, h3, by dsimp only; omega⟩

theorem waveCalls_currents (G : Geom) (dt : ℝ) (j : ℕ) : CurrentsWithin G dt demoWave 0 j (waveCalls G dt j) := by
  intro a i k hn
  have e : callSum (waveCalls G dt j) (jOf a) i k = demoWave.at G (((j : ℝ) + 1 / 2) * dt) (jOf a) i k := by
    unfold callSum waveCalls
    rw [List.map_map, Finset.sum_map_toList]
    simp only [Function.comp]
    cases a <;> simp only [ENode] at hn
    · simp [jOf, demoWave, Wave.at]
    · simp [jOf, demoWave, Wave.at]
    · rw [Finset.sum_eq_single (i, k)]
      · simp [jOf]
      · intro p _ hp
        rw [if_neg]
        rintro ⟨-, h1, h2⟩
        exact hp (Prod.ext h1 h2)
      · intro h
        exact absurd (by simp only [mem_product, mem_Ico]; exact ⟨⟨hn.1, hn.2.1⟩, hn.2.2.1, hn.2.2.2⟩) h
  rw [e]; simp

/-- C96: on every grid of the unit cylinder, with every time step within the limit, the program follows `demoWave`
with an error of second order, for every number of steps up to time 1. -/
example : ∃ C : ℝ, ∀ (G : Geom) (dt : ℝ) (n : ℕ), G.Valid → G.r_size = 1 → G.z_size = 1 → 0 ≤ dt → dt ≤ 1 →
    StepLimit G dt 1 (1 / 2) → (n : ℝ) * dt ≤ 1 →
    ∃ m m', Started G (fun _ _ => some 0) m ∧ FieldRun G dt (waveCalls G dt) n m m' ∧
      errorE G demoWave (n * dt) m' ≤ (C * (dt ^ 2 + G.dr ^ 2 + G.dz ^ 2)) ^ 2 ∧
      errorH G demoWave (n * dt - dt / 2) m' ≤ (C * (dt ^ 2 + G.dr ^ 2 + G.dz ^ 2)) ^ 2 := by
  obtain ⟨C, hC⟩ := C96_from_start demoWave 1 1 1 1 (1 / 2) (demoWave_solves 1)
    (by intro a ha r z _ _ _ _; cases a <;> simp only [isField] at ha <;> simp [demoWave])
    (by intros; simp [demoWave]) (by norm_num) (by norm_num)
  refine ⟨C, ?_⟩
  intro G dt n hG hr hz hdt hdt1 hl hn
  obtain ⟨-, -, m, hm⟩ := C13_setup_safe G hG (fun _ _ => some 0) (fun _ => none)
  have hc : CallsOk G (waveCalls G dt) := fun j => waveCalls_ok G dt j
  have : ∃ m', FieldRun G dt (waveCalls G dt) n m m' := by
    clear hn
    induction n with
    | zero => exact ⟨m, .zero m⟩
    | succ n ih =>
      obtain ⟨m', h⟩ := ih
      exact (C13_run_safe G hG dt _ _ hc m m' hm n h).2
  obtain ⟨m', h⟩ := this
  have rep := hm.rep hG
  have med : ∀ i k, Box 0 G.nr 0 G.nz i k → fieldsOf m .eps i k = 1 ∧ fieldsOf m .sig i k = 0 := by
    intro i k hb
    constructor
    · rw [agree_at rep.agree .eps i k (by rng) (by rng) (by rng) (by rng)]; rfl
    · rw [agree_at rep.agree .sig i k (by rng) (by rng) (by rng) (by rng)]; rfl
  have := hC G dt 0 0 (fun _ _ => some 0) (waveCalls G dt) n m m' hG hr hz hdt hdt1 hl le_rfl zero_le_one le_rfl hn hm
    ⟨fun i k hb => by rw [(med i k hb).1, (med i k hb).2]; exact ⟨le_rfl, le_rfl⟩,
      fun a i k hn => by rw [(med i k hn.box).1, (med i k hn.box).2]; simp [demoWave]⟩
    (fun j _ => ⟨waveCalls_ok G dt j, waveCalls_currents G dt j⟩) h
  simp only [add_zero] at this
  exact ⟨m, m', hm, h, this⟩

end Verif
