import Verif.Plasma
import Verif.ProgramProps
import Verif.SamplerProps
import Mathlib.Analysis.Complex.ExponentialBounds

/-!
# The plasma that the program starts with (C79)
-/

namespace Verif

/-! ## Energies -/

/-- the argument of the table -/
noncomputable def mjArg (T U : ℝ) : ℝ :=
  (Real.log (-Real.log (1 - U) - mjH0 T) + 30) * (999 / (12 + 30))

theorem mjH0_pos {T : ℝ} (hT : 0 < T) : 0 < -mjH0 T :=
  lt_of_lt_of_le (by positivity) (mjH0_bounds hT).1

theorem mjArg_range {T U : ℝ} (h1 : 0.1 ≤ T) (h2 : T ≤ 3000) (h : UniformDraw U) :
    0 ≤ mjArg T U ∧ mjArg T U < 999 := by
  obtain ⟨a, b⟩ := mj_range h1 h2 h.1 h.2
  unfold mjArg
  constructor
  · apply mul_nonneg <;> [linarith; norm_num]
  · norm_num; linarith

theorem mjArg_mono {T U V : ℝ} (hT : 0 < T) (h0 : 0 ≤ U) (h : U ≤ V) (h1 : V ≤ 1 - 1 / 2 ^ 53) :
    mjArg T U ≤ mjArg T V := by
  have hp := mjH0_pos hT
  have h53 : (0 : ℝ) < 1 / 2 ^ 53 := by positivity
  have l0 : Real.log (1 - U) ≤ 0 := Real.log_nonpos (by linarith) (by linarith)
  have l1 : Real.log (1 - V) ≤ Real.log (1 - U) := Real.log_le_log (by linarith) (by linarith)
  unfold mjArg
  apply mul_le_mul_of_nonneg_right _ (by norm_num)
  have := Real.log_le_log (x := -Real.log (1 - U) - mjH0 T) (y := -Real.log (1 - V) - mjH0 T)
    (by linarith) (by linarith)
  linarith

theorem gammaGuess_arg {T U : ℝ} (h1 : 0.1 ≤ T) (h2 : T ≤ 3000) (h : UniformDraw U) :
    gammaGuess T U = some (some (T * Real.exp (interp lnInvH (mjArg T U)))) := by
  obtain ⟨a, b⟩ := mj_range h1 h2 h.1 h.2
  exact gammaGuess_mid a b

theorem mjArg_le {T U : ℝ} (h1 : 0.1 ≤ T) (h : UniformDraw U) : mjArg T U ≤ 806 := by
  have hT : 0 < T := by linarith
  have hp := mjH0_pos hT
  have h53 : (0 : ℝ) < 1 / 2 ^ 53 := by positivity
  have h1' := h.2
  have l0 : Real.log (1 - U) ≤ 0 := Real.log_nonpos (by linarith) (by linarith [h.1])
  have l2 : -(53 * Real.log 2) ≤ Real.log (1 - U) := by
    have : Real.log (1 / 2 ^ 53) ≤ Real.log (1 - U) := Real.log_le_log (by positivity) (by linarith)
    rw [one_div, Real.log_inv, Real.log_pow] at this
    exact_mod_cast this
  have y2 : 1 / T ≤ 10 := by rw [div_le_iff₀ hT]; linarith
  have y0 : 0 < 1 / T := by positivity
  have hH : -mjH0 T ≤ 10 := by
    unfold mjH0
    have : 0 ≤ Real.log (1 + 1 / T + 0.5 * (1 / T) * (1 / T)) := by
      apply Real.log_nonneg
      have : 0 ≤ 0.5 * (1 / T) * (1 / T) := by positivity
      linarith
    linarith
  have h4 := Real.log_two_lt_d9
  have hle : -Real.log (1 - U) - mjH0 T ≤ 46.8 := by linarith
  have hexp : (46.8 : ℝ) ≤ Real.exp 3.86 := by
    have := Real.sum_le_exp_of_nonneg (x := 3.86) (by norm_num) 14
    refine le_trans ?_ this
    norm_num [Finset.sum_range_succ, Nat.factorial]
  have : Real.log (-Real.log (1 - U) - mjH0 T) ≤ 3.86 := by
    rw [Real.log_le_iff_le_exp (by linarith)]
    linarith
  unfold mjArg
  norm_num at this ⊢
  linarith

/-- the guess is at most 60 temperatures -/
theorem guess_le {T U : ℝ} (h1 : 0.1 ≤ T) (h2 : T ≤ 3000) (h : UniformDraw U) :
    T * Real.exp (interp lnInvH (mjArg T U)) ≤ 60 * T := by
  have hT : 0 < T := by linarith
  have hi : interp lnInvH (mjArg T U) ≤ interp lnInvH ((806 : ℕ) : ℝ) :=
    interp_mono lnInvH_length lnInvH_increasing (mjArg_range h1 h2 h).1 (by exact_mod_cast mjArg_le h1 h)
      (by norm_num)
  rw [interp_nat] at hi
  have hv : ((lnInvH.getD 806 0 : ℤ) : ℝ) / 10 ^ 21 ≤ 4.03 := by
    have : lnInvH.getD 806 0 ≤ (4030000000000000000000 : ℤ) := by decide +kernel
    have : ((lnInvH.getD 806 0 : ℤ) : ℝ) ≤ (4030000000000000000000 : ℝ) := by exact_mod_cast this
    rw [div_le_iff₀ (by positivity)]
    norm_num at this ⊢
    exact this
  have he : Real.exp 4.03 ≤ 60 := by
    have e1 := Real.exp_one_lt_d9
    have : Real.exp 4.03 = Real.exp 1 ^ 4 * Real.exp 0.03 := by
      rw [← Real.exp_nat_mul, ← Real.exp_add]; norm_num
    rw [this]
    have e2 : Real.exp 0.03 ≤ 1 / (1 - 0.03) := by
      have := Real.one_sub_le_exp_neg 0.03
      rw [Real.exp_neg] at this
      rw [le_div_iff₀ (by norm_num)]
      have hp := Real.exp_pos 0.03
      calc Real.exp 0.03 * (1 - 0.03) ≤ Real.exp 0.03 * (Real.exp 0.03)⁻¹ :=
            mul_le_mul_of_nonneg_left this hp.le
        _ = 1 := mul_inv_cancel₀ hp.ne'
    have e3 : Real.exp 1 ^ 4 ≤ 2.7182818286 ^ 4 := pow_le_pow_left₀ (Real.exp_pos 1).le e1.le 4
    calc Real.exp 1 ^ 4 * Real.exp 0.03 ≤ 2.7182818286 ^ 4 * (1 / (1 - 0.03)) :=
          mul_le_mul e3 e2 (Real.exp_pos _).le (by positivity)
      _ ≤ 60 := by norm_num
  have : Real.exp (interp lnInvH (mjArg T U)) ≤ 60 := (Real.exp_le_exp.2 (hi.trans hv)).trans he
  nlinarith

/-- The sampler at this temperature turns the draw zero into a factor above one. -/
def GoodTemperature (T : ℝ) : Prop := ∃ g, gammaGuess T 0 = some (some g) ∧ 1 < g

theorem zero_draw : UniformDraw 0 := by constructor <;> norm_num

theorem guess_gt {T U : ℝ} (h1 : 0.1 ≤ T) (h2 : T ≤ 3000) (hg : GoodTemperature T) (h : UniformDraw U) :
    1 < T * Real.exp (interp lnInvH (mjArg T U)) := by
  have hT : 0 < T := by linarith
  obtain ⟨g, e, hlt⟩ := hg
  rw [gammaGuess_arg h1 h2 zero_draw] at e
  obtain rfl := Option.some.inj (Option.some.inj e)
  refine hlt.trans_le (mul_le_mul_of_nonneg_left (Real.exp_le_exp.2 ?_) hT.le)
  exact interp_mono lnInvH_length lnInvH_increasing (mjArg_range h1 h2 zero_draw).1
    (mjArg_mono hT le_rfl h.1 h.2) (mjArg_range h1 h2 h).2

/-- **C60, part: range of the energies** from 0.1 to 3000 eV: they are defined, at most 60 temperatures,
and not negative if the draw zero gives no negative one. -/
theorem C60_range_partial (T : ℝ) (h1 : 0.1 ≤ T) (h2 : T ≤ 3000) (us : List (ℝ × ℝ))
    (hu : ∀ d ∈ us, UniformDraw d.1 ∧ UniformDraw d.2) (e : Option ℝ) (h : Sample T us e) :
    ∃ x, e = some x ∧ -1 < x ∧ x ≤ 60 * T ∧ (GoodTemperature T → 0 < x) := by
  unfold Sample at h
  rw [if_neg (not_lt.2 h1)] at h
  have hT : 0 < T := by linarith
  induction h with
  | accept U V gamma h hV =>
    have hd := (hu (U, V) (by simp)).1
    rw [gammaGuess_arg h1 h2 hd] at h
    obtain rfl := Option.some.inj h
    have hp : 0 < T * Real.exp (interp lnInvH (mjArg T U)) := mul_pos hT (Real.exp_pos _)
    refine ⟨_, rfl, by linarith, by linarith [guess_le h1 h2 hd], fun hg => ?_⟩
    linarith [guess_gt h1 h2 hg hd]
  | again U V gamma h hV l e t ih => exact ih fun d hd => hu d (by simp [hd])

/-- there are draws that are accepted -/
theorem sample_exists {T : ℝ} (h1 : 0.1 ≤ T) (h2 : T ≤ 3000) (hg : GoodTemperature T) :
    ∃ us e, (∀ d ∈ us, UniformDraw d.1 ∧ UniformDraw d.2) ∧ Sample T us (some e) := by
  refine ⟨[(0, 0)], T * Real.exp (interp lnInvH (mjArg T 0)) - 1, ?_, ?_⟩
  · intro d hd
    rw [List.mem_singleton.1 hd]
    exact ⟨zero_draw, zero_draw⟩
  · unfold Sample
    rw [if_neg (not_lt.2 h1)]
    have := SampleRel.accept (T := T) 0 0 _ (gammaGuess_arg h1 h2 zero_draw) (by
      rintro ⟨g, e, -, hle⟩
      obtain rfl := Option.some.inj e
      have hgt := guess_gt h1 h2 hg zero_draw
      obtain ⟨x, hx⟩ : ∃ x, x = T * Real.exp (interp lnInvH (mjArg T 0)) := ⟨_, rfl⟩
      rw [← hx] at hle hgt
      have : 0 < Real.sqrt (1 - 1 / x ^ 2) := by
        apply Real.sqrt_pos.2
        have : 1 / x ^ 2 < 1 := by
          rw [div_lt_one (by positivity)]
          nlinarith
        linarith
      linarith)
    exact this

/-! ### The temperatures of the shipped configuration -/

theorem interp_ge {q : ℝ} {i : ℕ} {a b : ℤ} (h0 : (i : ℝ) ≤ q) (h1 : q < i + 1)
    (ha : lnInvH.getD i 0 = a) (hb : lnInvH.getD (i + 1) 0 = b) :
    interp lnInvH q = (a : ℝ) / 10 ^ 21 + (q - i) * ((b : ℝ) / 10 ^ 21 - (a : ℝ) / 10 ^ 21) := by
  have hf : ⌊q⌋₊ = i := by
    rw [Nat.floor_eq_iff (le_trans (Nat.cast_nonneg _) h0)]; exact ⟨h0, h1⟩
  unfold interp
  rw [hf, ha, hb]

theorem good_one : GoodTemperature 1 := by
  refine ⟨_, gammaGuess_arg (by norm_num) (by norm_num) zero_draw, ?_⟩
  rw [one_mul, Real.one_lt_exp_iff]
  have hl : Real.log 2.5 ≤ 0.916291 := by
    rw [Real.log_le_iff_le_exp (by norm_num)]
    refine le_trans ?_ (Real.sum_le_exp_of_nonneg (x := 0.916291) (by norm_num) 12)
    norm_num [Finset.sum_range_succ, Nat.factorial]
  have hm : (0.083709 : ℝ) ≤ -mjH0 1 := by
    unfold mjH0
    norm_num at hl ⊢
    linarith
  have hx : (-2.48041 : ℝ) ≤ Real.log (-Real.log (1 - 0) - mjH0 1) := by
    have hp := mjH0_pos one_pos
    rw [sub_zero, Real.log_one, neg_zero, zero_sub, Real.le_log_iff_exp_le hp]
    refine le_trans ?_ hm
    rw [Real.exp_neg, inv_le_comm₀ (Real.exp_pos _) (by norm_num)]
    refine le_trans ?_ (Real.sum_le_exp_of_nonneg (x := 2.48041) (by norm_num) 18)
    norm_num [Finset.sum_range_succ, Nat.factorial]
  have hq : (654.573 : ℝ) ≤ mjArg 1 0 := by
    unfold mjArg
    norm_num at hx ⊢
    linarith
  refine lt_of_lt_of_le ?_ (interp_mono lnInvH_length lnInvH_increasing (by norm_num) hq
    (mjArg_range (by norm_num) (by norm_num) zero_draw).2)
  rw [interp_ge (i := 654) (by norm_num) (by norm_num)
    (show lnInvH.getD 654 0 = -10076922918379520310 by decide +kernel)
    (show lnInvH.getD (654 + 1) 0 = 7515373853751791157 by decide +kernel)]
  norm_num

theorem good_tenth : GoodTemperature (1 / 10) := by
  refine ⟨_, gammaGuess_arg (by norm_num) (by norm_num) zero_draw, ?_⟩
  have hl : Real.log 61 ≤ 4.110874 := by
    rw [Real.log_le_iff_le_exp (by norm_num)]
    refine le_trans ?_ (Real.sum_le_exp_of_nonneg (x := 4.110874) (by norm_num) 24)
    norm_num [Finset.sum_range_succ, Nat.factorial]
  have hm : (5.889126 : ℝ) ≤ -mjH0 (1 / 10) := by
    unfold mjH0
    norm_num at hl ⊢
    linarith
  have hx : (1.7731 : ℝ) ≤ Real.log (-Real.log (1 - 0) - mjH0 (1 / 10)) := by
    have hp := mjH0_pos (T := 1 / 10) (by norm_num)
    rw [sub_zero, Real.log_one, neg_zero, zero_sub, Real.le_log_iff_exp_le hp]
    refine le_trans ?_ hm
    rw [show (1.7731 : ℝ) = 0.88655 + 0.88655 by norm_num, Real.exp_add]
    have := Real.exp_bound' (x := 0.88655) (by norm_num) (by norm_num) (n := 12) (by norm_num)
    have h2 : Real.exp 0.88655 ≤ 2.42675 := by
      refine this.trans ?_
      norm_num [Finset.sum_range_succ, Nat.factorial]
    nlinarith [Real.exp_pos (0.88655 : ℝ)]
  have hq : (755.7458 : ℝ) ≤ mjArg (1 / 10) 0 := by
    unfold mjArg
    norm_num at hx ⊢
    linarith
  have hi := interp_mono lnInvH_length lnInvH_increasing (by norm_num) hq
    (mjArg_range (by norm_num) (by norm_num) zero_draw).2
  rw [interp_ge (i := 755) (by norm_num) (by norm_num)
    (show lnInvH.getD 755 0 = 2280099095897945016000 by decide +kernel)
    (show lnInvH.getD (755 + 1) 0 = 2310261370437167727000 by decide +kernel)] at hi
  have hv : (2.30259 : ℝ) ≤ interp lnInvH (mjArg (1 / 10) 0) := by
    refine le_trans ?_ hi
    norm_num
  have : (10 : ℝ) < Real.exp (interp lnInvH (mjArg (1 / 10) 0)) := by
    refine lt_of_lt_of_le ?_ (Real.exp_le_exp.2 hv)
    refine lt_of_lt_of_le ?_ (Real.sum_le_exp_of_nonneg (x := 2.30259) (by norm_num) 20)
    norm_num [Finset.sum_range_succ, Nat.factorial]
  linarith

/-! ## Macroparticles -/

/-- Usable settings of a plasma species: macroparticles, positive mass and densities, a temperature from
0.1 to 2500 eV that the sampler can deal with. -/
structure SpecieSettings.Usable (sp : SpecieSettings) : Prop where
  number : 1 ≤ sp.number_macro
  mass : 1 ≤ sp.mass
  left : 0 < sp.left_density
  right : 0 < sp.right_density
  low : 0.1 ≤ sp.temperature
  high : sp.temperature ≤ 2500
  good : GoodTemperature sp.temperature

theorem codeDraws_range {number : ℕ} {draws : List (ℝ × ℝ)} (h : CodeDraws number draws) :
    ∀ u ∈ draws, (0 ≤ u.1 ∧ u.1 < 1) ∧ 0 ≤ u.2 ∧ u.2 < 1 := by
  intro u hu
  obtain ⟨n, hn⟩ := List.getElem?_of_mem hu
  obtain ⟨h1, h2⟩ := h.2 n u hn
  exact ⟨(C27_total (by norm_num) _).2 _ h1, (C27_total (by norm_num) _).2 _ h2⟩

theorem codeDraws_exists (number : ℕ) : ∃ draws, CodeDraws number draws := by
  choose f hf _ using fun (v : ℝ) => (C27_total (p := 13) (by norm_num) v).1
  choose g hg _ using fun (v : ℝ) => (C27_total (p := 11) (by norm_num) v).1
  refine ⟨(List.range number).map fun n : ℕ => (f n, g ((number - 1 - n : ℕ) : ℝ)), by simp, ?_⟩
  intro n u hu
  rw [List.getElem?_map] at hu
  obtain ⟨m, hm, rfl⟩ := Option.map_eq_some_iff.1 hu
  obtain ⟨h1, h2⟩ := List.getElem?_eq_some_iff.1 hm
  rw [List.getElem_range] at h2
  subst h2
  exact ⟨hf _, hg _⟩

theorem loaded_good {G : Geom} (hG : G.Valid) (hnr : 3 ≤ G.nr) (hnz : 3 ≤ G.nz) {charge mass n1 n2 : ℝ}
    (hm : 0 < mass) (h1 : 0 < n1) (h2 : 0 < n2) {draws : List (ℝ × ℝ)}
    (hd : ∀ u ∈ draws, (0 ≤ u.1 ∧ u.1 < 1) ∧ 0 ≤ u.2 ∧ u.2 < 1) {l : Loaded}
    (hl : l ∈ loadCylindrical G charge mass n1 n2 0 draws) :
    InRegion G l.pos.c0 l.pos.c2 ∧ l.pos.c1 = 0 ∧ 0 < l.mass := by
  have hdr := hG.dr_pos
  have hdz := hG.dz_pos
  have hpi := PI_pos'
  unfold loadCylindrical at hl
  dsimp only at hl
  rw [List.map_map, List.mem_map] at hl
  obtain ⟨u, hu, rfl⟩ := hl
  obtain ⟨⟨a1, a2⟩, ⟨b1, b2⟩, c, -⟩ := C26_position G hG hnr hnz n1 n2 h1 h2 u.1 u.2 (hd u hu).1 (hd u hu).2
  refine ⟨⟨a1, a2.le, b1, b2.le⟩, c, ?_⟩
  dsimp only [Function.comp]
  have hrs : 0 < G.r_size := by
    have : (3 : ℝ) ≤ G.nr := by exact_mod_cast hnr
    rw [hG.r_size_eq]; nlinarith
  have hzs : 0 < G.z_size := by
    have : (3 : ℝ) ≤ G.nz := by exact_mod_cast hnz
    rw [hG.z_size_eq]; nlinarith
  have hn : (0 : ℝ) < draws.length := by
    exact_mod_cast List.length_pos_of_mem hu
  have hv : 0 < ((draws.map fun u => loadPos G n1 n2 0 u.1 u.2).map fun p =>
      2 * PI * p.c0 * G.dr * G.dz).sum := by
    apply List.sum_pos
    · intro x hx
      simp only [List.mem_map, exists_exists_and_eq_and] at hx
      obtain ⟨v, hv, rfl⟩ := hx
      have := (C26_position G hG hnr hnz n1 n2 h1 h2 v.1 v.2 (hd v hv).1 (hd v hv).2).1.1
      have : 0 < (loadPos G n1 n2 0 v.1 v.2).c0 := by linarith
      positivity
    · intro hx
      have := congrArg List.length hx
      simp at this
      rw [this] at hu; cases hu
  have hp : 0 < (loadPos G n1 n2 0 u.1 u.2).c0 := by linarith
  apply mul_pos hm
  apply mul_pos
  · positivity
  · unfold macroNorm
    split_ifs <;> positivity

theorem thermal_slow {m e T : ℝ} (hm : EL_MASS ≤ m) (he0 : 0 ≤ e) (he : e ≤ 60 * T) (hT : T ≤ 2500) {rnd : V3}
    (hr : Uniform2Draw rnd) : speedSq (thermalVelocity m e rnd) < LIGHT_SPEED ^ 2 := by
  have key := (C54_speed_partial m e rnd).2.2.2
  have hM : 0 < EL_MASS := by norm_num [EL_MASS]
  have hm0 : 0 < m := hM.trans_le hm
  have hq : (0:ℝ) < EL_CHARGE := by norm_num [EL_CHARGE]
  have h0 : 0 ≤ 2 * EL_CHARGE * e / m := by positivity
  have hb : 2 * EL_CHARGE * e / m ≤ 2 * EL_CHARGE * 150000 / EL_MASS := by
    apply div_le_div₀ (by positivity) _ hM hm
    apply mul_le_mul_of_nonneg_left _ (by positivity)
    linarith
  obtain ⟨w, hw⟩ : ∃ w, w = Real.sqrt (2 * EL_CHARGE * e / m) := ⟨_, rfl⟩
  have hw2 : w ^ 2 = 2 * EL_CHARGE * e / m := by rw [hw, Real.sq_sqrt h0]
  rw [← hw] at key
  obtain ⟨r0, r1, r2⟩ := hr
  have s0 : rnd.c0 ^ 2 ≤ 1 := (sq_le_one_iff_abs_le_one _).2 r0
  have s1 : rnd.c1 ^ 2 ≤ 1 := (sq_le_one_iff_abs_le_one _).2 r1
  have s2 : rnd.c2 ^ 2 ≤ 1 := (sq_le_one_iff_abs_le_one _).2 r2
  have e1 : V3.dot (rnd.smul (w * 0.74)) (rnd.smul (w * 0.74))
      = 0.5476 * w ^ 2 * (rnd.c0 ^ 2 + rnd.c1 ^ 2 + rnd.c2 ^ 2) := by
    unfold V3.dot V3.smul; dsimp only; ring
  have e2 : speedSq (thermalVelocity m e rnd) = V3.dot (thermalVelocity m e rnd) (thermalVelocity m e rnd) := by
    unfold speedSq V3.dot; ring
  have e3 : 0.5476 * w ^ 2 * (rnd.c0 ^ 2 + rnd.c1 ^ 2 + rnd.c2 ^ 2) ≤ 0.5476 * w ^ 2 * 3 := by
    apply mul_le_mul_of_nonneg_left _ (by positivity)
    linarith
  have e4 : 0.5476 * (2 * EL_CHARGE * 150000 / EL_MASS) * 3 < LIGHT_SPEED ^ 2 := by
    norm_num [EL_CHARGE, EL_MASS, LIGHT_SPEED]
  rw [e2]
  linarith

/-- A macroparticle of a usable species -/
theorem particle_good {G : Geom} (hG : G.Valid) (hnr : 3 ≤ G.nr) (hnz : 3 ≤ G.nz) {sp : SpecieSettings}
    (hs : sp.Usable) {ps : List Particle} (h : InitSpecies G sp (some ps)) :
    ∀ p ∈ ps, p.alive = true ∧ InRegion G p.pos.c0 p.pos.c2 ∧ p.pos.c1 = 0 ∧ 0 < p.mass ∧
      speedSq p.vel < LIGHT_SPEED ^ 2 := by
  cases h with
  | ok draws hd _ h =>
    intro p hp
    obtain ⟨l, hl, us, e, rnd, h1, h2, h3, h4, h5, h6, h7, h8, h9⟩ := forall2_right h hp
    have hM : 0 < EL_MASS := by norm_num [EL_MASS]
    have hmass : (1 : ℝ) ≤ sp.mass := by exact_mod_cast hs.mass
    obtain ⟨g1, g2, g3⟩ := loaded_good hG hnr hnz (by positivity) hs.left hs.right (codeDraws_range hd) hl
    obtain ⟨x, hx, -, hle, -⟩ := C60_range_partial _ hs.low (by linarith [hs.high]) us h1 _ h2
    obtain rfl := Option.some.inj hx
    rw [h6, h7, h9]
    exact ⟨h5, g1, g2, g3, thermal_slow (by nlinarith) h3 hle hs.high h4⟩

theorem species_total {G : Geom} {sp : SpecieSettings} (hs : sp.Usable) :
    ¬ InitSpecies G sp none ∧ ∃ ps, InitSpecies G sp (some ps) := by
  have hhi : sp.temperature ≤ 3000 := by linarith [hs.high]
  constructor
  · intro h
    cases h with
    | tables _ h =>
      obtain ⟨U, hU, h⟩ := h
      rw [if_neg (not_lt.2 hs.low), gammaGuess_arg hs.low hhi hU] at h
      cases h
    | nan _ us hu e h he =>
      rcases he with he | he
      · obtain ⟨x, rfl, -, -, hx⟩ := C60_range_partial _ hs.low hhi us hu e h
        linarith [he x rfl, hx hs.good]
      · have := hs.mass; omega
  · obtain ⟨draws, hd⟩ := codeDraws_exists sp.number
    obtain ⟨us, e, hu, he⟩ := sample_exists hs.low hhi hs.good
    obtain ⟨x, hx, -, -, hx0⟩ := C60_range_partial _ hs.low hhi us hu _ he
    obtain rfl := Option.some.inj hx
    obtain ⟨L, hL⟩ : ∃ L, L = loadCylindrical G (sp.charge * EL_CHARGE) (sp.mass * EL_MASS)
      sp.left_density sp.right_density 0 draws := ⟨_, rfl⟩
    refine ⟨L.map fun l => ⟨true, l.pos, ⟨0, 0, 0⟩, thermalVelocity (sp.mass * EL_MASS) e ⟨0, 0, 0⟩,
      l.charge, l.mass, 0, 0⟩, .ok draws hd _ ?_⟩
    rw [← hL, List.forall₂_map_right_iff, List.forall₂_same]
    intro l _
    exact ⟨us, e, ⟨0, 0, 0⟩, hu, he, (hx0 hs.good).le, ⟨by simp, by simp, by simp⟩, rfl, rfl, rfl, rfl, rfl⟩

/-! ## C79 -/

/-- **C79** For usable species the loading of the plasma cannot go wrong, and all macroparticles are alive,
off the walls by half a cell, have mass and are slower than light; none is in the last half cell. -/
theorem C79_plasma_partial (G : Geom) (hG : G.Valid) (hnr : 3 ≤ G.nr) (hnz : 3 ≤ G.nz)
    (sps : List SpecieSettings) (hs : ∀ sp ∈ sps, sp.Usable) :
    ¬ InitPlasma G sps none ∧ (∃ S, InitPlasma G sps (some S)) ∧
    ∀ S, InitPlasma G sps (some S) → S.length = sps.length ∧
      ∀ p ∈ parts S, p.alive = true ∧ (G.dr / 2 ≤ p.pos.c0 ∧ p.pos.c0 ≤ G.r_size - G.dr / 2 ∧
        G.dz / 2 ≤ p.pos.c2 ∧ p.pos.c2 ≤ G.z_size - G.dz / 2) ∧ p.pos.c1 = 0 ∧ 0 < p.mass ∧
        speedSq p.vel < LIGHT_SPEED ^ 2 := by
  refine ⟨?_, ?_, ?_⟩
  · rintro (⟨-, sp, hsp, h⟩ | ⟨S, h, -⟩)
    · exact (species_total (hs sp hsp)).1 h
    · cases h
  · suffices h : ∃ S : List Species,
        List.Forall₂ (fun sp s => s.bunch = false ∧ InitSpecies G sp (some s.ps)) sps S by
      obtain ⟨S, h⟩ := h
      exact ⟨S, Or.inr ⟨S, rfl, h⟩⟩
    induction sps with
    | nil => exact ⟨[], .nil⟩
    | cons sp sps ih =>
      obtain ⟨S, h⟩ := ih fun x hx => hs x (by simp [hx])
      obtain ⟨ps, hps⟩ := (species_total (G := G) (hs sp (by simp))).2
      exact ⟨⟨false, ps⟩ :: S, .cons ⟨rfl, hps⟩ h⟩
  · rintro S (⟨h, -⟩ | ⟨S', e, h⟩)
    · cases h
    · obtain rfl := Option.some.inj e
      refine ⟨h.length_eq.symm, fun p hp => ?_⟩
      obtain ⟨s, hsm, hp⟩ := List.mem_flatMap.1 hp
      obtain ⟨sp, hsp, -, hi⟩ := forall2_right h hsm
      exact particle_good hG hnr hnz (hs sp hsp) hi p hp

theorem shipped_species (debug : Bool) : ∀ sp ∈ (shipped debug).meaning.species, sp.Usable := by
  intro sp hsp
  simp only [Desc.meaning, shipped, List.map_cons, List.map_nil, List.mem_cons, List.not_mem_nil,
    or_false] at hsp
  rcases hsp with rfl | rfl
  · have ht : (SpecieDesc.meaning debug ⟨"electrons".toList, -1, 1, litE 1 6, litE 1 4, litE 1 16,
        ⟨false, 1, [0, 5], some 16⟩, litF 1 [0]⟩).temperature = 1 := by
      norm_num [SpecieDesc.meaning, litF, Lit.value, fracValue]
    constructor
    · cases debug <;> norm_num [SpecieDesc.meaning, litE, Lit.value, fracValue]
    · norm_num [SpecieDesc.meaning]
    · norm_num [SpecieDesc.meaning, litE, Lit.value, fracValue]
    · norm_num [SpecieDesc.meaning, litE, Lit.value, fracValue]
    · rw [ht]; norm_num
    · rw [ht]; norm_num
    · rw [ht]; exact good_one
  · have ht : (SpecieDesc.meaning debug ⟨"ions".toList, 1, 1836, litE 1 6, litE 1 4, litE 1 16,
        ⟨false, 1, [0, 5], some 16⟩, litF 0 [1]⟩).temperature = 1 / 10 := by
      norm_num [SpecieDesc.meaning, litF, Lit.value, fracValue]
    constructor
    · cases debug <;> norm_num [SpecieDesc.meaning, litE, Lit.value, fracValue]
    · norm_num [SpecieDesc.meaning]
    · norm_num [SpecieDesc.meaning, litE, Lit.value, fracValue]
    · norm_num [SpecieDesc.meaning, litE, Lit.value, fracValue]
    · rw [ht]; norm_num
    · rw [ht]; norm_num
    · rw [ht]; exact good_tenth

theorem forall2_charge {sp : SpecieSettings} {L : List Loaded} {ps : List Particle}
    (h : List.Forall₂ (LoadedParticle sp) L ps) : (ps.map Particle.charge).sum = (L.map Loaded.charge).sum := by
  induction h with
  | nil => rfl
  | cons h _ ih =>
    obtain ⟨_, _, _, -, -, -, -, -, -, -, h8, -⟩ := h
    simp only [List.map_cons, List.sum_cons, ih, h8]

/-- **C79** The charges of a species add up to its charge times the number of real particles that its
density profile has in the chamber, and it has as many macroparticles as the configuration says. -/
theorem C79_charge (G : Geom) (hG : G.Valid) (sps : List SpecieSettings)
    (hs : ∀ sp ∈ sps, 1 ≤ sp.number_macro) (S : List Species) (h : InitPlasma G sps (some S)) :
    List.Forall₂ (fun sp s => s.ps.length = ⌊sp.number_macro⌋₊ ∧ (s.ps.map Particle.charge).sum =
      sp.charge * EL_CHARGE * ((sp.left_density + sp.right_density) / 2 * (PI * G.r_size ^ 2 * G.z_size)))
      sps S := by
  rcases h with ⟨h, -⟩ | ⟨S', e, h⟩
  · cases h
  obtain rfl := Option.some.inj e
  clear e
  induction h with
  | nil => exact .nil
  | @cons sp s sps S h _ ih =>
    refine .cons ?_ (ih fun x hx => hs x (by simp [hx]))
    obtain ⟨-, h⟩ := h
    obtain ⟨ps, hps⟩ : ∃ ps, ps = s.ps := ⟨_, rfl⟩
    rw [← hps] at h ⊢
    cases h with
    | ok draws hd _ h =>
      have hn : 1 ≤ sp.number := Nat.le_floor (by simpa using hs sp (by simp))
      have hne : draws ≠ [] := by
        intro e; rw [e] at hd; have := hd.1; simp at this; omega
      obtain ⟨c1, -, c3, -⟩ := C25_total_charge G hG (sp.charge * EL_CHARGE) (sp.mass * EL_MASS)
        sp.left_density sp.right_density 0 draws hne (fun u hu => (codeDraws_range hd u hu).1)
      refine ⟨?_, by rw [forall2_charge h, c1]⟩
      rw [← h.length_eq, c3, hd.1]
      rfl

/-- **C79** The plasma of the configuration that comes with the program, in debug mode or not: loading
cannot go wrong, the macroparticles are inside and slower than light, and the plasma as a whole has no
charge. -/
theorem C79_shipped (debug : Bool) : ∃ c G, loadConfig (some (shipped debug).xml) = .ok c ∧
    c.geometry = some G ∧ ¬ InitPlasma G c.species none ∧ (∃ S, InitPlasma G c.species (some S)) ∧
    ∀ S, InitPlasma G c.species (some S) →
      (∀ p ∈ parts S, Inside G p ∧ ¬ InLastHalfCell G p) ∧ ((parts S).map Particle.charge).sum = 0 := by
  obtain ⟨G, hg, hv, hnr, hnz, -⟩ := shipped_setup debug
  refine ⟨_, G, C68_read_back _ (shipped_ok debug), hg, ?_⟩
  obtain ⟨k1, k2, k3⟩ := C79_plasma_partial G hv hnr hnz _ (shipped_species debug)
  refine ⟨k1, k2, fun S hS => ⟨fun p hp => ?_, ?_⟩⟩
  · obtain ⟨-, ⟨a1, a2, a3, a4⟩, b, c, d⟩ := (k3 S hS).2 p hp
    have := hv.dr_pos
    exact ⟨fun _ => ⟨⟨a1, by linarith, a3, a4⟩, b, c.ne', d⟩, fun h => by linarith [h.2]⟩
  · have hc := C79_charge G hv _ (fun sp hsp => (shipped_species debug sp hsp).number) S hS
    simp only [Desc.meaning, shipped, List.map_cons, List.map_nil] at hc
    cases hc with
    | cons h1 hc => cases hc with
      | cons h2 hc =>
        cases hc
        simp only [parts, List.flatMap_cons, List.flatMap_nil, List.append_nil, List.map_append,
          List.sum_append, h1.2, h2.2]
        simp only [SpecieDesc.meaning]
        push_cast
        ring

/-- **C78** (the shipped configuration with its own plasma). Every iteration of the run that can be
reached faults exactly in the clean-up from iteration 101001 on, or when a live macroparticle is in the
last half cell before the outer wall; the first iteration cannot fault. -/
theorem C78_shipped_partial (debug : Bool) : ∃ c G, loadConfig (some (shipped debug).xml) = .ok c ∧
    c.geometry = some G ∧ ∀ (mode : PusherMode), (mode = .borisRelativistic ∨ mode = .vay) →
    ∀ (tbl : ℤ → ℤ → Option ℝ) (plasma : List Species), InitPlasma G c.species (some plasma) →
    ∀ n s, ProgRun G mode c.beamSetup tbl c.time.current_time c.time.delta_t plasma n s →
      (ProgFault G mode c.beamSetup (c.time.current_time + n * c.time.delta_t) c.time.delta_t s ↔
        101001 ≤ n ∨ ∃ b, BeamStep G c.beamSetup (c.time.current_time + n * c.time.delta_t) c.time.delta_t
          s.beam (some b) ∧ ∃ p ∈ parts (partList c.beamSetup.number s.plasma b), InLastHalfCell G p) ∧
      (¬ ProgFault G mode c.beamSetup (c.time.current_time + n * c.time.delta_t) c.time.delta_t s →
        ∃ s', ProgRun G mode c.beamSetup tbl c.time.current_time c.time.delta_t plasma (n + 1) s') ∧
      (n = 0 → ∃ s', ProgRun G mode c.beamSetup tbl c.time.current_time c.time.delta_t plasma 1 s') := by
  obtain ⟨c, G, hload, hg, ht, -, hviol⟩ := C78_shipped_violated debug
  obtain ⟨G', hg', hv, hnr, hnz, hz, hdr, hdz, hP⟩ := shipped_setup debug
  have hc : c = (shipped debug).meaning := by
    rw [C68_read_back _ (shipped_ok debug)] at hload
    cases hload; rfl
  rw [← hc] at hg' hP
  obtain rfl : G = G' := Option.some.inj (hg.symm.trans hg')
  have hdt : c.time.delta_t = 1 / 10 ^ 13 := by
    rw [hc]; norm_num [Desc.meaning, shipped, litE, Lit.value, fracValue]
  have hvel : c.beamSetup.velocity = 2 * 10 ^ 8 := by
    rw [hc]; norm_num [Config.beamSetup, Desc.meaning, shipped, litE, Lit.value, fracValue]
  have hdur : c.beamSetup.duration = 1 / 10 ^ 10 := by
    rw [hc]; norm_num [Config.beamSetup, Desc.meaning, shipped, litE, litF, Lit.value, fracValue]
  refine ⟨c, G, hload, hg, ?_⟩
  intro mode hmode tbl plasma hpl n s h
  have hpar := ((C79_plasma_partial G hv hnr hnz _ (shipped_species debug)).2.2 plasma (by
    rw [hc] at hpl; exact hpl)).2
  have hin : ∀ p ∈ parts plasma, Inside G p := by
    intro p hp
    obtain ⟨-, ⟨a1, a2, a3, a4⟩, b, c, d⟩ := hpar p hp
    have := hv.dr_pos
    exact fun _ => ⟨⟨a1, by linarith, a3, a4⟩, b, c.ne', d⟩
  have hpos : 0 < c.time.delta_t := by rw [hdt]; norm_num
  obtain ⟨-, k2, k3⟩ := C78_any_plasma_partial G hv hnr hnz mode hmode c.time.current_time c.time.delta_t hpos
    (by rw [hdt]; exact hdr) (by rw [hdt]; exact hdz) tbl c.beamSetup hP plasma hin n s h
  refine ⟨⟨fun hf => ?_, ?_⟩, k3, ?_⟩
  · refine (k2.1 hf).imp ?_ id
    rintro ⟨-, hlt⟩
    rw [hz, hvel, hdur, ht, hdt] at hlt
    have : (101000 : ℝ) < n := by linarith
    exact_mod_cast this
  · rintro (hn | hl)
    · exact (hviol mode tbl plasma).1 n s h hn
    · exact k2.2 (Or.inr hl)
  · rintro rfl
    refine k3 fun hf => ?_
    cases h with
    | start m1 m0 h1 h0 =>
      rcases k2.1 hf with ⟨hl, -⟩ | ⟨b, hb, p, hp, ha, hl⟩
      · simp at hl
      · rcases parts_partList.1 hp with hp | ⟨d, hd, i, hi, rfl⟩
        · linarith [(hpar p hp).2.1.2.1]
        · have hr := (beamStep_inv (Q := Ready G) hv hP hpos (by rw [hdt]; exact hdz) hnz (fun _ h => h)
            (fun b hb => by cases hb) hb d hd).1 i hi ha
          linarith [hr.1.2.1]

end Verif
