import Verif.Sampler
import Mathlib.Data.List.Chain
import Mathlib.Analysis.SpecialFunctions.Log.Deriv
import Mathlib.Analysis.Complex.ExponentialBounds
import Mathlib.Tactic.Positivity

/-!
# C60: sampling of thermal energies
-/

namespace Verif

theorem lnInvF_length : lnInvF.length = 1000 := by decide +kernel
theorem lnInvH_length : lnInvH.length = 1000 := by decide +kernel
theorem lnInvF_decreasing : List.IsChain (· > ·) lnInvF := by decide +kernel
theorem lnInvH_increasing : List.IsChain (· < ·) lnInvH := by decide +kernel

/-- interpolated exponent of a table -/
noncomputable def interp (t : List ℤ) (I : ℝ) : ℝ :=
  ((t.getD ⌊I⌋₊ 0 : ℤ) : ℝ) / 10 ^ 21 + (I - ⌊I⌋₊)
    * (((t.getD (⌊I⌋₊ + 1) 0 : ℤ) : ℝ) / 10 ^ 21 - ((t.getD ⌊I⌋₊ 0 : ℤ) : ℝ) / 10 ^ 21)

theorem tableExp_some {t : List ℤ} (ht : t.length = 1000) {I : ℝ} (h0 : 0 ≤ I) (h1 : I < 999) :
    tableExp t I = some (Real.exp (interp t I)) := by
  have hf : ⌊I⌋₊ < 999 := (Nat.floor_lt h0).2 (by exact_mod_cast h1)
  unfold tableExp interp
  have a : t[⌊I⌋₊]? = some t[⌊I⌋₊] := List.getElem?_eq_getElem (by omega)
  have b : t[⌊I⌋₊ + 1]? = some t[⌊I⌋₊ + 1] := List.getElem?_eq_getElem (by omega)
  rw [List.getD_eq_getElem?_getD, List.getD_eq_getElem?_getD, a, b]
  rfl

theorem getD_lt {t : List ℤ} {i : ℕ} (h : i < t.length) : t.getD i 0 = t[i] := by
  rw [List.getD_eq_getElem?_getD, List.getElem?_eq_getElem h, Option.getD_some]

theorem table_anti {t : List ℤ} (hd : List.IsChain (· > ·) t) {i j : ℕ} (hij : i ≤ j)
    (hj : j < t.length) : ((t.getD j 0 : ℤ) : ℝ) / 10 ^ 21 ≤ ((t.getD i 0 : ℤ) : ℝ) / 10 ^ 21 := by
  induction j, hij using Nat.le_induction with
  | base => exact le_rfl
  | succ j hij ih =>
    refine le_trans ?_ (ih (by omega))
    have := List.isChain_iff_getElem.1 hd j (by omega)
    rw [getD_lt hj, getD_lt (by omega : j < t.length)]
    apply div_le_div_of_nonneg_right _ (by positivity)
    exact_mod_cast (le_of_lt this)

/-- Interpolation in a decreasing table is decreasing. -/
theorem interp_anti {t : List ℤ} (ht : t.length = 1000) (hd : List.IsChain (· > ·) t) {I J : ℝ}
    (h0 : 0 ≤ I) (hIJ : I ≤ J) (h1 : J < 999) : interp t J ≤ interp t I := by
  have hJ0 : 0 ≤ J := h0.trans hIJ
  have hfJ : ⌊J⌋₊ < 999 := (Nat.floor_lt hJ0).2 (by exact_mod_cast h1)
  have hfIJ : ⌊I⌋₊ ≤ ⌊J⌋₊ := Nat.floor_mono hIJ
  have a1 := Nat.floor_le h0
  have a2 := Nat.lt_floor_add_one I
  have b1 := Nat.floor_le hJ0
  have b2 := Nat.lt_floor_add_one J
  have sI := table_anti hd (Nat.le_succ ⌊I⌋₊) (by rw [ht]; omega)
  have sJ := table_anti hd (Nat.le_succ ⌊J⌋₊) (by rw [ht]; omega)
  simp only [Nat.succ_eq_add_one] at sI sJ
  rcases hfIJ.eq_or_lt with e | e
  · unfold interp
    rw [← e] at sJ ⊢
    nlinarith
  · have s := table_anti hd (show ⌊I⌋₊ + 1 ≤ ⌊J⌋₊ by omega) (by rw [ht]; omega)
    unfold interp
    nlinarith

theorem table_mono {t : List ℤ} (hd : List.IsChain (· < ·) t) {i j : ℕ} (hij : i ≤ j)
    (hj : j < t.length) : ((t.getD i 0 : ℤ) : ℝ) / 10 ^ 21 ≤ ((t.getD j 0 : ℤ) : ℝ) / 10 ^ 21 := by
  induction j, hij using Nat.le_induction with
  | base => exact le_rfl
  | succ j hij ih =>
    refine (ih (by omega)).trans ?_
    have := List.isChain_iff_getElem.1 hd j (by omega)
    rw [getD_lt hj, getD_lt (by omega : j < t.length)]
    apply div_le_div_of_nonneg_right _ (by positivity)
    exact_mod_cast (le_of_lt this)

/-- Interpolation in an increasing table is increasing. -/
theorem interp_mono {t : List ℤ} (ht : t.length = 1000) (hd : List.IsChain (· < ·) t) {I J : ℝ}
    (h0 : 0 ≤ I) (hIJ : I ≤ J) (h1 : J < 999) : interp t I ≤ interp t J := by
  have hJ0 : 0 ≤ J := h0.trans hIJ
  have hfJ : ⌊J⌋₊ < 999 := (Nat.floor_lt hJ0).2 (by exact_mod_cast h1)
  have hfIJ : ⌊I⌋₊ ≤ ⌊J⌋₊ := Nat.floor_mono hIJ
  have a1 := Nat.floor_le h0
  have a2 := Nat.lt_floor_add_one I
  have b1 := Nat.floor_le hJ0
  have b2 := Nat.lt_floor_add_one J
  have sI := table_mono hd (Nat.le_succ ⌊I⌋₊) (by rw [ht]; omega)
  have sJ := table_mono hd (Nat.le_succ ⌊J⌋₊) (by rw [ht]; omega)
  simp only [Nat.succ_eq_add_one] at sI sJ
  rcases hfIJ.eq_or_lt with e | e
  · unfold interp
    rw [← e] at sJ ⊢
    nlinarith
  · have s := table_mono hd (show ⌊I⌋₊ + 1 ≤ ⌊J⌋₊ by omega) (by rw [ht]; omega)
    unfold interp
    nlinarith

theorem interp_nat (t : List ℤ) (n : ℕ) : interp t n = ((t.getD n 0 : ℤ) : ℝ) / 10 ^ 21 := by
  unfold interp
  rw [Nat.floor_natCast]
  ring

/-! ## The classical branch -/

/-- `log(-log(U))` as a function of the draw -/
noncomputable def lnln (U : ℝ) : ℝ := Real.log (-Real.log U)

theorem neg_log_pos {U : ℝ} (h0 : 0 < U) (h1 : U < 1) : 0 < -Real.log U := by
  have := Real.log_neg h0 h1
  linarith

theorem lnln_anti {U V : ℝ} (h0 : 0 < U) (h : U ≤ V) (h1 : V < 1) : lnln V ≤ lnln U := by
  unfold lnln
  apply Real.log_le_log (neg_log_pos (h0.trans_le h) h1)
  have := Real.log_le_log h0 h
  linarith

theorem lnln_exp (x : ℝ) : lnln (Real.exp (-Real.exp x)) = x := by
  unfold lnln
  rw [Real.log_exp, neg_neg, Real.log_exp]

/-- The three cases of the classical branch -/
theorem sampleClassic_low {T U : ℝ} (h0 : 0 < U) (h : 2 < lnln U) :
    sampleClassic T U = some (T * (3 * Real.sqrt Real.pi / 4 * U ^ ((2 : ℝ) / 3))) := by
  unfold sampleClassic
  rw [if_neg h0.ne']
  exact if_pos h

theorem sampleClassic_high {T U : ℝ} (h0 : 0 < U) (h : lnln U < -19) :
    sampleClassic T U = some (T * 1) := by
  unfold sampleClassic
  rw [if_neg h0.ne']
  have h2 : ¬ (lnln U > 2) := by intro h'; linarith
  exact (if_neg h2).trans (if_pos h)

theorem sampleClassic_mid {T U : ℝ} (h0 : 0 < U) (h : -19 ≤ lnln U) (h2 : lnln U < 2) :
    sampleClassic T U = some (T * Real.exp (interp lnInvF ((lnln U + 19) * (999 / (2 + 19))))) := by
  unfold sampleClassic
  rw [if_neg h0.ne']
  have e1 : ¬ (lnln U > 2) := by intro h'; linarith
  have e2 : ¬ (lnln U < -19) := by intro h'; linarith
  refine ((if_neg e1).trans (if_neg e2)).trans ?_
  change (tableExp lnInvF ((lnln U + 19) * (999 / (2 + 19)))).map _ = _
  rw [tableExp_some lnInvF_length (by apply mul_nonneg <;> [linarith; norm_num]) (by
    norm_num; linarith)]
  rfl

theorem sqrt_pi_bounds : 1.77 < Real.sqrt Real.pi ∧ Real.sqrt Real.pi < 1.78 := by
  have h1 := Real.pi_gt_d2
  have h2 := Real.pi_lt_d2
  constructor
  · apply Real.lt_sqrt_of_sq_lt; norm_num at h1 ⊢; linarith
  · rw [Real.sqrt_lt' (by norm_num)]; norm_num at h2 ⊢; linarith

theorem lnInvF_first : ((lnInvF.getD 0 0 : ℤ) : ℝ) / 10 ^ 21 = 3.028113261189336214 := by
  rw [show lnInvF.getD 0 0 = 3028113261189336214000 by decide +kernel]; norm_num

/-- **C60, part: classical branch.** For every draw in `[0, 1)` except one single real number the energy
is defined, not negative and at most 20.7 temperatures. -/
theorem C60_classic_partial (T U : ℝ) (hT : 0 ≤ T) (h0 : 0 ≤ U) (h1 : U < 1)
    (hU : U ≠ Real.exp (-Real.exp 2)) :
    ∃ e, sampleClassic T U = some e ∧ 0 ≤ e ∧ e ≤ 20.7 * T := by
  obtain ⟨p1, p2⟩ := sqrt_pi_bounds
  rcases h0.eq_or_lt with rfl | h0
  · refine ⟨_, by unfold sampleClassic; rw [if_pos rfl], ?_, ?_⟩
    · simp
    · simp; positivity
  have hexp : Real.exp 3.028113261189336214 ≤ 20.7 := by
    have e1 := Real.exp_one_lt_d9
    have : Real.exp 3.028113261189336214 = Real.exp 1 ^ 3 * Real.exp 0.028113261189336214 := by
      rw [← Real.exp_nat_mul, ← Real.exp_add]; norm_num
    rw [this]
    have e2 : Real.exp 0.028113261189336214 ≤ 1 / (1 - 0.028113261189336214) := by
      have := Real.one_sub_le_exp_neg 0.028113261189336214
      rw [Real.exp_neg] at this
      rw [le_div_iff₀ (by norm_num)]
      have hp := Real.exp_pos 0.028113261189336214
      calc Real.exp 0.028113261189336214 * (1 - 0.028113261189336214)
          ≤ Real.exp 0.028113261189336214 * (Real.exp 0.028113261189336214)⁻¹ :=
            mul_le_mul_of_nonneg_left this hp.le
        _ = 1 := mul_inv_cancel₀ hp.ne'
    have e3 : Real.exp 1 ^ 3 ≤ 2.7182818286 ^ 3 :=
      pow_le_pow_left₀ (Real.exp_pos 1).le e1.le 3
    calc _ ≤ 2.7182818286 ^ 3 * (1 / (1 - 0.028113261189336214)) :=
          mul_le_mul e3 e2 (Real.exp_pos _).le (by norm_num)
      _ ≤ 20.7 := by norm_num
  rcases lt_trichotomy (lnln U) 2 with h | h | h
  · rcases lt_or_ge (lnln U) (-19) with h' | h'
    · exact ⟨_, sampleClassic_high h0 h', by linarith, by linarith⟩
    · refine ⟨_, sampleClassic_mid h0 h' h, mul_nonneg hT (Real.exp_pos _).le, ?_⟩
      have hI : 0 ≤ (lnln U + 19) * (999 / (2 + 19)) := by
        apply mul_nonneg <;> [linarith; norm_num]
      have := interp_anti lnInvF_length lnInvF_decreasing (I := ((0 : ℕ) : ℝ)) (by simp)
        (by simpa using hI) (by norm_num; linarith : (lnln U + 19) * (999 / (2 + 19)) < 999)
      rw [interp_nat, lnInvF_first] at this
      have h3 := (Real.exp_le_exp.2 this).trans hexp
      nlinarith
  · exfalso
    apply hU
    have := Real.exp_log (neg_log_pos h0 h1)
    unfold lnln at h
    rw [h] at this
    rw [this, neg_neg, Real.exp_log h0]
  · refine ⟨_, sampleClassic_low h0 h, by positivity, ?_⟩
    have : U ^ ((2 : ℝ) / 3) ≤ 1 := Real.rpow_le_one h0.le h1.le (by norm_num)
    have hU0 : 0 ≤ U ^ ((2 : ℝ) / 3) := by positivity
    have : 3 * Real.sqrt Real.pi / 4 * U ^ ((2 : ℝ) / 3) ≤ 20.7 := by nlinarith
    nlinarith

/-- **C60 fails at the end of the table:** there the element after the last one is read. -/
theorem C60_table_end_violated (T : ℝ) :
    0 < Real.exp (-Real.exp 2) ∧ Real.exp (-Real.exp 2) < 1 ∧
    sampleClassic T (Real.exp (-Real.exp 2)) = none := by
  have h0 := Real.exp_pos (-Real.exp 2)
  refine ⟨h0, ?_, ?_⟩
  · rw [Real.exp_lt_one_iff]; linarith [Real.exp_pos 2]
  · unfold sampleClassic
    rw [if_neg h0.ne']
    change (if lnln (Real.exp (-Real.exp 2)) > 2 then _ else if lnln (Real.exp (-Real.exp 2)) < -19
      then _ else (tableExp lnInvF ((lnln (Real.exp (-Real.exp 2)) + 19) * _)).map _) = _
    rw [lnln_exp, if_neg (by norm_num), if_neg (by norm_num)]
    have : ((2 : ℝ) + 19) * (999 / (2 + 19)) = ((999 : ℕ) : ℝ) := by norm_num
    rw [this]
    unfold tableExp
    rw [Nat.floor_natCast]
    have h2 : lnInvF[999 + 1]? = none := List.getElem?_eq_none (by rw [lnInvF_length])
    rw [h2]
    cases lnInvF[999]? <;> rfl

/-- **C60, part: larger draws give larger energies** inside the range of the table and below it. -/
theorem C60_monotone_partial (T U V : ℝ) (hT : 0 ≤ T) (h0 : 0 < U) (h : U ≤ V) (h1 : V < 1)
    (hr : (-19 ≤ lnln V ∧ lnln U < 2) ∨ 2 < lnln V) :
    ∃ a b, sampleClassic T U = some a ∧ sampleClassic T V = some b ∧ a ≤ b := by
  have hm := lnln_anti h0 h h1
  rcases hr with ⟨ha, hb⟩ | ha
  · refine ⟨_, _, sampleClassic_mid h0 (by linarith) hb, sampleClassic_mid (h0.trans_le h) ha (by linarith), ?_⟩
    apply mul_le_mul_of_nonneg_left _ hT
    rw [Real.exp_le_exp]
    apply interp_anti lnInvF_length lnInvF_decreasing
    · apply mul_nonneg <;> [linarith; norm_num]
    · apply mul_le_mul_of_nonneg_right _ (by norm_num); linarith
    · norm_num; linarith
  · refine ⟨_, _, sampleClassic_low h0 (by linarith), sampleClassic_low (h0.trans_le h) ha, ?_⟩
    apply mul_le_mul_of_nonneg_left _ hT
    apply mul_le_mul_of_nonneg_left _ (by positivity)
    exact Real.rpow_le_rpow h0.le h (by norm_num)

/-- Not vacuous: two draws in the range of the table. -/
example : (-19 : ℝ) ≤ lnln (Real.exp (-Real.exp 0)) ∧ lnln (Real.exp (-Real.exp 1)) < 2 := by
  rw [lnln_exp, lnln_exp]; norm_num

/-- **C60 fails: the energy is not a monotone function of the draw** at the top: the largest draws give
just the temperature, a smaller one more than 20 temperatures. -/
theorem C60_monotone_top_violated (T : ℝ) (hT : 0 < T) : ∃ U V a b, 0 < U ∧ U < V ∧ V < 1 ∧
    sampleClassic T U = some a ∧ sampleClassic T V = some b ∧ 20 * b < a := by
  refine ⟨Real.exp (-Real.exp (-19)), Real.exp (-Real.exp (-20)), _, _, Real.exp_pos _, ?_, ?_,
    sampleClassic_mid (Real.exp_pos _) ?_ ?_, sampleClassic_high (Real.exp_pos _) ?_, ?_⟩
  · rw [Real.exp_lt_exp, neg_lt_neg_iff, Real.exp_lt_exp]; norm_num
  · rw [Real.exp_lt_one_iff]; linarith [Real.exp_pos (-20)]
  · rw [lnln_exp]
  · rw [lnln_exp]; norm_num
  · rw [lnln_exp]; norm_num
  · rw [lnln_exp]
    have : ((-19 : ℝ) + 19) * (999 / (2 + 19)) = ((0 : ℕ) : ℝ) := by norm_num
    rw [this, interp_nat, lnInvF_first]
    have e3 : 20 < Real.exp 3.028113261189336214 := by
      have e1 := Real.exp_one_gt_d9
      have h3 : Real.exp 3.028113261189336214 = Real.exp 1 ^ 3 * Real.exp 0.028113261189336214 := by
        rw [← Real.exp_nat_mul, ← Real.exp_add]; norm_num
      rw [h3]
      have h4 : 2.7182818283 ^ 3 ≤ Real.exp 1 ^ 3 := pow_le_pow_left₀ (by norm_num) e1.le 3
      have h5 := Real.add_one_le_exp (0.028113261189336214 : ℝ)
      calc (20 : ℝ) < 2.7182818283 ^ 3 * (0.028113261189336214 + 1) := by norm_num
        _ ≤ _ := mul_le_mul h4 h5 (by norm_num) (by positivity)
    nlinarith

/-- **C60 fails: the same at the bottom:** just below the first table entry a smaller draw gives a larger
energy (the code has `3√π/4 · U^(2/3)` instead of `(3√π/4 · U)^(2/3)`). -/
theorem C60_monotone_bottom_violated (T : ℝ) (hT : 0 < T) : ∃ U V a b, 0 < U ∧ U < V ∧ V < 1 ∧
    sampleClassic T U = some a ∧ sampleClassic T V = some b ∧ b < a := by
  have hx : (998.9 : ℝ) * 21 / 999 - 19 < 2 := by norm_num
  refine ⟨Real.exp (-Real.exp 2.001), Real.exp (-Real.exp (998.9 * 21 / 999 - 19)), _, _,
    Real.exp_pos _, ?_, ?_, sampleClassic_low (Real.exp_pos _) ?_,
    sampleClassic_mid (Real.exp_pos _) ?_ ?_, ?_⟩
  · rw [Real.exp_lt_exp, neg_lt_neg_iff, Real.exp_lt_exp]; norm_num
  · rw [Real.exp_lt_one_iff]; linarith [Real.exp_pos (998.9 * 21 / 999 - 19)]
  · rw [lnln_exp]; norm_num
  · rw [lnln_exp]; norm_num
  · rw [lnln_exp]; norm_num
  · rw [lnln_exp]
    apply mul_lt_mul_of_pos_left _ hT
    have e1 : ((998.9 : ℝ) * 21 / 999 - 19 + 19) * (999 / (2 + 19)) = 998.9 := by norm_num
    rw [e1]
    have e2 : interp lnInvF 998.9 < -4.72 := by
      unfold interp
      have hf : ⌊(998.9 : ℝ)⌋₊ = 998 := by rw [Nat.floor_eq_iff (by norm_num)]; norm_num
      rw [hf, show lnInvF.getD 998 0 = -4629879064442645742000 by decide +kernel,
        show lnInvF.getD (998 + 1) 0 = -4732729626089497543000 by decide +kernel]
      norm_num
    refine (Real.exp_lt_exp.2 e2).trans ?_
    rw [← Real.exp_mul]
    have hpi := sqrt_pi_bounds.1
    have hlog : 0.246 ≤ Real.log (3 * Real.sqrt Real.pi / 4) := by
      have h1 : (1.3275 : ℝ) ≤ 3 * Real.sqrt Real.pi / 4 := by linarith
      have h2 := Real.one_sub_inv_le_log_of_pos (show (0 : ℝ) < 1.3275 by norm_num)
      have h3 := Real.log_le_log (by norm_num : (0 : ℝ) < 1.3275) h1
      norm_num at h2 h3 ⊢
      linarith
    have hpos : 0 < 3 * Real.sqrt Real.pi / 4 := by linarith
    rw [← Real.exp_log hpos, ← Real.exp_add, Real.exp_lt_exp]
    have hexp : Real.exp 2.001 ≤ 7.4 := by
      have e1 := Real.exp_one_lt_d9
      have h3 : Real.exp 2.001 = Real.exp 1 ^ 2 * Real.exp 0.001 := by
        rw [← Real.exp_nat_mul, ← Real.exp_add]; norm_num
      have e2 : Real.exp 0.001 ≤ 1 / (1 - 0.001) := by
        have := Real.one_sub_le_exp_neg 0.001
        rw [Real.exp_neg] at this
        rw [le_div_iff₀ (by norm_num)]
        have hp := Real.exp_pos 0.001
        calc Real.exp 0.001 * (1 - 0.001) ≤ Real.exp 0.001 * (Real.exp 0.001)⁻¹ :=
              mul_le_mul_of_nonneg_left this hp.le
          _ = 1 := mul_inv_cancel₀ hp.ne'
      have e3 : Real.exp 1 ^ 2 ≤ 2.7182818286 ^ 2 := pow_le_pow_left₀ (Real.exp_pos 1).le e1.le 2
      rw [h3]
      calc _ ≤ 2.7182818286 ^ 2 * (1 / (1 - 0.001)) :=
            mul_le_mul e3 e2 (Real.exp_pos _).le (by norm_num)
        _ ≤ 7.4 := by norm_num
    have : -Real.exp 2.001 * (2 / 3) ≥ -7.4 * (2 / 3) := by linarith
    norm_num at this hlog ⊢
    linarith

/-! ## The relativistic branch -/

/-- `-H0` as a function of `y = 1/T` lies between `y³/(6+6y+3y²+y³)` and `y³/4`. -/
theorem mjH0_bounds {T : ℝ} (hT : 0 < T) :
    (1 / T) ^ 3 / (6 + 6 * (1 / T) + 3 * (1 / T) ^ 2 + (1 / T) ^ 3) ≤ -mjH0 T ∧
      -mjH0 T ≤ (1 / T) ^ 3 / 4 := by
  unfold mjH0
  set y := 1 / T with hy
  have h0 : 0 < y := by positivity
  have hP : 0 < 1 + y + 0.5 * y * y := by positivity
  constructor
  · have h1 : Real.log (1 + y + 0.5 * y * y + y ^ 3 / 6) ≤ y := by
      rw [Real.log_le_iff_le_exp (by positivity)]
      have := Real.sum_le_exp_of_nonneg h0.le 4
      simp only [Finset.sum_range_succ, Finset.sum_range_zero, Nat.factorial] at this
      norm_num at this ⊢
      linarith
    have h2 : 1 + y + 0.5 * y * y + y ^ 3 / 6
        = (1 + y + 0.5 * y * y) * (1 + y ^ 3 / 6 / (1 + y + 0.5 * y * y)) := by field_simp
    rw [h2, Real.log_mul hP.ne' (by positivity)] at h1
    have h3 := Real.one_sub_inv_le_log_of_pos
      (show 0 < 1 + y ^ 3 / 6 / (1 + y + 0.5 * y * y) by positivity)
    have h4 : 1 - (1 + y ^ 3 / 6 / (1 + y + 0.5 * y * y))⁻¹ = y ^ 3 / (6 + 6 * y + 3 * y ^ 2 + y ^ 3) := by
      field_simp
      ring
    linarith
  · have h1 := Real.le_log_one_add_of_nonneg (show 0 ≤ y + 0.5 * y * y by positivity)
    have h2 : y - 2 * (y + 0.5 * y * y) / (y + 0.5 * y * y + 2) ≤ y ^ 3 / 4 := by
      rw [sub_le_iff_le_add, ← sub_le_iff_le_add', le_div_iff₀ (by positivity)]
      nlinarith [pow_pos h0 3, pow_pos h0 4]
    have h3 : (1 : ℝ) + y + 0.5 * y * y = 1 + (y + 0.5 * y * y) := by ring
    rw [h3]
    linarith

theorem gammaGuess_mid {T U : ℝ} (h1 : -26 ≤ Real.log (-Real.log (1 - U) - mjH0 T))
    (h2 : Real.log (-Real.log (1 - U) - mjH0 T) < 12) :
    gammaGuess T U = some (some (T * Real.exp (interp lnInvH
      ((Real.log (-Real.log (1 - U) - mjH0 T) + 30) * (999 / (12 + 30)))))) := by
  unfold gammaGuess
  simp only []
  rw [if_neg (not_lt.2 h1), if_neg (not_lt.2 h2.le),
    tableExp_some lnInvH_length (by apply mul_nonneg <;> [linarith; norm_num]) (by norm_num; linarith)]
  rfl

theorem exp_neg26 : Real.exp (-26) ≤ 6e-12 := by
  have h := Real.exp_one_gt_d9
  have e : Real.exp (-26) = (Real.exp 1 ^ 26)⁻¹ := by
    rw [← Real.exp_nat_mul, ← Real.exp_neg]; norm_num
  rw [e, inv_le_comm₀ (by positivity) (by norm_num)]
  calc (6e-12 : ℝ)⁻¹ ≤ 2.7182818283 ^ 26 := by norm_num
    _ ≤ _ := pow_le_pow_left₀ (by norm_num) h.le 26

/-- The argument of the outer logarithm is in the range of the table. -/
theorem mj_range {T U : ℝ} (h1 : 0.1 ≤ T) (h2 : T ≤ 3000) (h0 : 0 ≤ U) (hU : U ≤ 1 - 1 / 2 ^ 53) :
    -26 ≤ Real.log (-Real.log (1 - U) - mjH0 T) ∧ Real.log (-Real.log (1 - U) - mjH0 T) < 12 := by
  have hT : 0 < T := by linarith
  obtain ⟨a, b⟩ := mjH0_bounds hT
  set y := 1 / T with hy
  have y1 : 1 / 3000 ≤ y := one_div_le_one_div_of_le hT h2
  have y2 : y ≤ 10 := by
    rw [hy, div_le_iff₀ hT]; linarith
  have y0 : 0 < y := by positivity
  have l1 : Real.log (1 - U) ≤ 0 := Real.log_nonpos (by linarith [show (0:ℝ) < 1 / 2 ^ 53 by positivity]) (by linarith)
  have l2 : -(53 * Real.log 2) ≤ Real.log (1 - U) := by
    have : Real.log (1 / 2 ^ 53) ≤ Real.log (1 - U) :=
      Real.log_le_log (by positivity) (by linarith)
    rw [one_div, Real.log_inv, Real.log_pow] at this
    exact_mod_cast this
  have c : 6e-12 ≤ y ^ 3 / (6 + 6 * y + 3 * y ^ 2 + y ^ 3) := by
    rw [le_div_iff₀ (by positivity)]
    have k1 : 1 ≤ 3000 * y := by linarith
    have k2 : (1 : ℝ) ≤ (3000 * y) ^ 2 := one_le_pow₀ k1
    have k3 : (1 : ℝ) ≤ (3000 * y) ^ 3 := one_le_pow₀ k1
    have k4 : y ≤ y * (3000 * y) ^ 2 := le_mul_of_one_le_right y0.le k2
    have k5 : y ^ 2 ≤ y ^ 2 * (3000 * y) := le_mul_of_one_le_right (by positivity) k1
    nlinarith
  have hpos : 0 < -Real.log (1 - U) - mjH0 T := by linarith
  constructor
  · rw [Real.le_log_iff_exp_le hpos]
    linarith [exp_neg26]
  · rw [Real.log_lt_iff_lt_exp hpos]
    have h3 : (163 : ℝ) < Real.exp 12 := by
      have h := Real.exp_one_gt_d9
      have e : Real.exp 12 = Real.exp 1 ^ 12 := by rw [← Real.exp_nat_mul]; norm_num
      rw [e]
      calc (163 : ℝ) < 2.7182818283 ^ 12 := by norm_num
        _ ≤ _ := pow_le_pow_left₀ (by norm_num) h.le 12
    have h4 := Real.log_two_lt_d9
    have h5 : y ^ 3 / 4 ≤ 250 := by
      have : y ^ 3 ≤ 10 ^ 3 := pow_le_pow_left₀ y0.le y2 3
      linarith
    have h6 : (290 : ℝ) < Real.exp 12 := by
      have h := Real.exp_one_gt_d9
      have e : Real.exp 12 = Real.exp 1 ^ 12 := by rw [← Real.exp_nat_mul]; norm_num
      rw [e]
      calc (290 : ℝ) < 2.7182818283 ^ 12 := by norm_num
        _ ≤ _ := pow_le_pow_left₀ (by norm_num) h.le 12
    linarith

/-- **C60, part: relativistic branch.** For temperatures from 0.1 to 3000 and every draw a double can be
(at most `1 - 2 ^ -53`) the guess is a positive number from inside the table, and a round that stores an
energy stores that guess minus one; if the guess is above one the second draw is below the velocity
`sqrt(1 - 1/γ²)` that belongs to it. -/
theorem C60_relativistic_partial (T : ℝ) (h1 : 0.1 ≤ T) (h2 : T ≤ 3000) (draws : List (ℝ × ℝ))
    (hd : ∀ d ∈ draws, 0 ≤ d.1 ∧ d.1 ≤ 1 - 1 / 2 ^ 53) (e : Option ℝ) (h : SampleRel T draws e) :
    ∃ g U V, (U, V) ∈ draws ∧ gammaGuess T U = some (some g) ∧ 0 < g ∧ e = some (g - 1) ∧
      (1 ≤ g → V < Real.sqrt (1 - 1 / g ^ 2)) := by
  induction h with
  | accept U V gamma h hV =>
    obtain ⟨a, b⟩ := hd (U, V) (by simp)
    obtain ⟨r1, r2⟩ := mj_range h1 h2 a b
    have hg := gammaGuess_mid r1 r2
    rw [hg] at h
    obtain rfl := Option.some.inj h
    refine ⟨_, U, V, by simp, hg, mul_pos (by linarith) (Real.exp_pos _), rfl, ?_⟩
    intro hge
    by_contra hc
    exact hV ⟨_, rfl, one_le_pow₀ hge, not_lt.1 hc⟩
  | again U V gamma h hV l e t ih =>
    obtain ⟨g, U', V', m, r⟩ := ih (fun d hdm => hd d (List.mem_cons_of_mem _ hdm))
    exact ⟨g, U', V', List.mem_cons_of_mem _ m, r⟩

/-- Not vacuous: at temperature one a first guess exists for the draw 1/2. -/
example : ∃ g, gammaGuess 1 (1 / 2) = some (some g) := by
  obtain ⟨a, b⟩ := mj_range (T := 1) (U := 1 / 2) (by norm_num) (by norm_num) (by norm_num) (by norm_num)
  exact ⟨_, gammaGuess_mid a b⟩

/-- **C60 fails for high temperatures:** from 5000 (eV) on, a first draw of zero gives energy -1 at once,
whatever the second draw. -/
theorem C60_negative_energy_violated (T : ℝ) (hT : 5000 ≤ T) (V : ℝ) :
    SampleRel T [(0, V)] (some (-1)) := by
  have h0 : 0 < T := by linarith
  have hb := (mjH0_bounds h0).2
  have ha := (mjH0_bounds h0).1
  have hpos : 0 < -mjH0 T := lt_of_lt_of_le (by positivity) ha
  have hy : (1 / T) ^ 3 / 4 ≤ 2e-12 := by
    have h1 : 1 / T ≤ 1 / 5000 := one_div_le_one_div_of_le (by norm_num) hT
    have : (1 / T) ^ 3 ≤ (1 / 5000) ^ 3 := pow_le_pow_left₀ (by positivity) h1 3
    norm_num at this ⊢
    linarith
  have hl : Real.log (-Real.log (1 - 0) - mjH0 T) < -26 := by
    rw [sub_zero, Real.log_one, neg_zero, zero_sub, Real.log_lt_iff_lt_exp hpos]
    have : (2e-12 : ℝ) < Real.exp (-26) := by
      have h := Real.exp_one_lt_d9
      have e : Real.exp (-26) = (Real.exp 1 ^ 26)⁻¹ := by
        rw [← Real.exp_nat_mul, ← Real.exp_neg]; norm_num
      rw [e, lt_inv_comm₀ (by norm_num) (by positivity)]
      calc Real.exp 1 ^ 26 ≤ 2.7182818286 ^ 26 := pow_le_pow_left₀ (Real.exp_pos 1).le h.le 26
        _ < (2e-12 : ℝ)⁻¹ := by norm_num
    linarith
  have hg : gammaGuess T 0 = some (some (T * 0)) := by
    unfold gammaGuess
    simp only []
    rw [if_pos hl]
    simp
  have := SampleRel.accept (T := T) 0 V _ hg (by
    rintro ⟨g, hg, h1, -⟩
    obtain rfl := Option.some.inj hg
    norm_num at h1)
  simpa using this

/-- **C60 fails: not the same distribution for all classical temperatures.** Temperatures are in eV, so
all below some thousand are classical and energies must scale with the temperature. But the code
switches to the formula for temperatures in units of the rest energy at 0.1: below, no energy exceeds
20.7 temperatures; at 1 eV, energies above 25 temperatures are drawn. -/
theorem C60_scaling_violated :
    (∀ T U e, 0 ≤ T → T < 0.1 → 0 ≤ U → U < 1 → sampleClassic T U = some e → e ≤ 20.7 * T) ∧
    ∃ U V e, 0 ≤ U ∧ U ≤ 1 - 1 / 2 ^ 53 ∧ 0 ≤ V ∧ V < 1 ∧ SampleRel 1 [(U, V)] (some e) ∧ 25 * 1 < e := by
  constructor
  · intro T U e hT _ h0 h1 h
    by_cases hU : U = Real.exp (-Real.exp 2)
    · rw [hU, (C60_table_end_violated T).2.2] at h; cases h
    · obtain ⟨e', he, -, hle⟩ := C60_classic_partial T U hT h0 h1 hU
      rw [he] at h
      obtain rfl := Option.some.inj h
      exact hle
  · have hUb : (1 : ℝ) - 1 / 2 ^ 53 ≤ 1 - 1 / 2 ^ 53 := le_rfl
    have hU0 : (0 : ℝ) ≤ 1 - 1 / 2 ^ 53 := by norm_num
    obtain ⟨r1, r2⟩ := mj_range (T := 1) (by norm_num) (by norm_num) hU0 hUb
    have hg := gammaGuess_mid r1 r2
    set lnU := Real.log (-Real.log (1 - (1 - 1 / 2 ^ 53)) - mjH0 1) with hlnU
    have hpos : 0 < -mjH0 1 := lt_of_lt_of_le (by norm_num) (mjH0_bounds one_pos).1
    have hlow : 3.5 ≤ lnU := by
      have e1 : (1 : ℝ) - (1 - 1 / 2 ^ 53) = (2 ^ 53)⁻¹ := by norm_num
      have hl : -Real.log (1 - (1 - 1 / 2 ^ 53)) = 53 * Real.log 2 := by
        rw [e1, Real.log_inv, Real.log_pow, neg_neg]; norm_num
      rw [hlnU, hl, Real.le_log_iff_exp_le (by
        have := Real.log_two_gt_d9; linarith)]
      have h2 := Real.log_two_gt_d9
      have h3 : Real.exp 3.5 ≤ 35 := by
        apply abs_le_of_sq_le_sq' _ (by norm_num) |>.2
        have e : Real.exp 3.5 ^ 2 = Real.exp 1 ^ 7 := by
          rw [← Real.exp_nat_mul, ← Real.exp_nat_mul]; norm_num
        rw [e]
        calc Real.exp 1 ^ 7 ≤ 2.7182818286 ^ 7 :=
              pow_le_pow_left₀ (Real.exp_pos 1).le Real.exp_one_lt_d9.le 7
          _ ≤ 35 ^ 2 := by norm_num
      linarith
    have hI : interp lnInvH ((796 : ℕ) : ℝ) ≤ interp lnInvH ((lnU + 30) * (999 / (12 + 30))) := by
      apply interp_mono lnInvH_length lnInvH_increasing (by positivity)
      · norm_num; linarith
      · norm_num; linarith
    rw [interp_nat] at hI
    have hv : (3.3 : ℝ) ≤ ((lnInvH.getD 796 0 : ℤ) : ℝ) / 10 ^ 21 := by
      have : (3300000000000000000000 : ℤ) ≤ lnInvH.getD 796 0 := by decide +kernel
      have : (3300000000000000000000 : ℝ) ≤ ((lnInvH.getD 796 0 : ℤ) : ℝ) := by exact_mod_cast this
      rw [le_div_iff₀ (by positivity)]
      norm_num at this ⊢
      exact this
    have hge : 26 < Real.exp (interp lnInvH ((lnU + 30) * (999 / (12 + 30)))) := by
      refine lt_of_lt_of_le ?_ (Real.exp_le_exp.2 (hv.trans hI))
      have e : Real.exp 3.3 = Real.exp 1 ^ 3 * Real.exp 0.3 := by
        rw [← Real.exp_nat_mul, ← Real.exp_add]; norm_num
      rw [e]
      have h4 : 2.7182818283 ^ 3 ≤ Real.exp 1 ^ 3 := pow_le_pow_left₀ (by norm_num) Real.exp_one_gt_d9.le 3
      have h5 := Real.add_one_le_exp (0.3 : ℝ)
      calc (26 : ℝ) < 2.7182818283 ^ 3 * (0.3 + 1) := by norm_num
        _ ≤ _ := mul_le_mul h4 h5 (by norm_num) (by positivity)
    set X := Real.exp (interp lnInvH ((lnU + 30) * (999 / (12 + 30)))) with hX
    refine ⟨1 - 1 / 2 ^ 53, 0, 1 * X - 1, hU0, hUb, le_rfl, one_pos, ?_, by linarith⟩
    have := SampleRel.accept (T := 1) (1 - 1 / 2 ^ 53) 0 _ hg (by
      rintro ⟨g, hg', h1, h2⟩
      obtain rfl := Option.some.inj hg'
      have : 0 < 1 - 1 / (1 * X) ^ 2 := by
        rw [sub_pos, div_lt_one (by positivity)]
        nlinarith
      have := Real.sqrt_pos.2 this
      linarith)
    simpa using this

end Verif
