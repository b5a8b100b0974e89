import Verif.Double
import Verif.ProbeProps

/-!
# C59: step counting in double precision
-/

namespace Verif

/-! ## Rounding -/

theorem rne_near (x : ℝ) : |(rne x : ℝ) - x| ≤ 1 / 2 := by
  have h1 := Int.floor_le x
  have h2 := Int.lt_floor_add_one x
  unfold rne
  split_ifs <;> rw [abs_le] <;> push_cast <;> constructor <;> linarith

theorem rne_int (m : ℤ) : rne (m : ℝ) = m := by
  unfold rne
  rw [if_pos (by simp), Int.floor_intCast]

theorem rne_mono {x y : ℝ} (h : x ≤ y) : rne x ≤ rne y := by
  have hf := Int.floor_mono h
  rcases hf.eq_or_lt with e | e
  · unfold rne
    rw [← e]
    split_ifs <;> first | omega | (exfalso; linarith)
  · have h1 : rne x ≤ ⌊x⌋ + 1 := by unfold rne; split_ifs <;> omega
    have h2 : ⌊y⌋ ≤ rne y := by unfold rne; split_ifs <;> omega
    omega

theorem two_zpow_pos (e : ℤ) : (0 : ℝ) < 2 ^ e := zpow_pos (by norm_num) e

/-- The error is at most half a unit in the last place. -/
theorem fl_err (x : ℝ) : |fl x - x| ≤ 2 ^ ulpExp x / 2 := by
  have hp := two_zpow_pos (ulpExp x)
  have h := rne_near (x / 2 ^ ulpExp x)
  have e : fl x - x = ((rne (x / 2 ^ ulpExp x) : ℝ) - x / 2 ^ ulpExp x) * 2 ^ ulpExp x := by
    unfold fl; field_simp
  rw [e, abs_mul, abs_of_pos hp]
  nlinarith

/-- A multiple of the unit in the last place is kept. -/
theorem fl_exact {x : ℝ} {m k : ℤ} (hx : x = m * 2 ^ k) (hk : ulpExp x ≤ k) : fl x = x := by
  have hp := two_zpow_pos (ulpExp x)
  have e : x / 2 ^ ulpExp x = ((m * 2 ^ (k - ulpExp x).toNat : ℤ) : ℝ) := by
    rw [div_eq_iff hp.ne']
    push_cast
    rw [← zpow_natCast (2 : ℝ), Int.toNat_of_nonneg (by omega), mul_assoc,
      ← zpow_add₀ (two_ne_zero), sub_add_cancel, ← hx]
  unfold fl
  rw [e, rne_int, ← e]
  field_simp

theorem log_eq_of {x : ℝ} {k : ℤ} (h1 : (2 : ℝ) ^ k ≤ x) (h2 : x < 2 ^ (k + 1)) : Int.log 2 x = k := by
  have hx : 0 < x := lt_of_lt_of_le (two_zpow_pos k) h1
  have a := (Int.zpow_le_iff_le_log (b := 2) (by norm_num) hx).1 (by exact_mod_cast h1)
  have b := (Int.lt_zpow_iff_log_lt (b := 2) (by norm_num) hx).1 (by exact_mod_cast h2)
  omega

theorem ulp_le {x : ℝ} {e : ℤ} (he : -1074 ≤ e) (hx : 0 < x) (h2 : x < 2 ^ (e + 53)) :
    ulpExp x ≤ e := by
  unfold ulpExp
  apply max_le _ he
  rw [abs_of_pos hx]
  have b := (Int.lt_zpow_iff_log_lt (b := 2) (by norm_num) hx).1 (by exact_mod_cast h2)
  omega

theorem fl_zero : fl 0 = 0 := by
  have : rne (0 : ℝ) = 0 := by exact_mod_cast rne_int 0
  simp [fl, this]

/-- Rounding is monotone. -/
theorem fl_mono_pos {x y : ℝ} (hx : 0 < x) (h : x ≤ y) : fl x ≤ fl y := by
  have hy : 0 < y := hx.trans_le h
  have hl : Int.log 2 x ≤ Int.log 2 y := Int.log_mono_right hx h
  have hxl := Int.lt_zpow_succ_log_self (b := 2) (by norm_num) x
  have hyl := Int.zpow_log_le_self (b := 2) (by norm_num) hy
  push_cast at hxl hyl
  have ex : ulpExp x = max (Int.log 2 x - 52) (-1074) := by unfold ulpExp; rw [abs_of_pos hx]
  have ey : ulpExp y = max (Int.log 2 y - 52) (-1074) := by unfold ulpExp; rw [abs_of_pos hy]
  have hpx := two_zpow_pos (ulpExp x)
  have hpy := two_zpow_pos (ulpExp y)
  have hle : ulpExp x ≤ ulpExp y := by rw [ex, ey]; omega
  rcases hle.eq_or_lt with e | e
  · unfold fl
    rw [← e]
    have : rne (x / 2 ^ ulpExp x) ≤ rne (y / 2 ^ ulpExp x) :=
      rne_mono (div_le_div_of_nonneg_right h hpx.le)
    have : (rne (x / 2 ^ ulpExp x) : ℝ) ≤ rne (y / 2 ^ ulpExp x) := by exact_mod_cast this
    exact mul_le_mul_of_nonneg_right this hpx.le
  · -- a power of two lies between
    have k1 : ulpExp y = Int.log 2 y - 52 := by rw [ey]; rw [ex, ey] at e; omega
    have k2 : Int.log 2 x + 1 ≤ Int.log 2 y := by rw [ex, ey] at e; omega
    have k3 : ulpExp x ≤ Int.log 2 y - 52 := by omega
    have a : fl x ≤ 2 ^ Int.log 2 y := by
      have hb : x ≤ 2 ^ Int.log 2 y := hxl.le.trans (zpow_le_zpow_right₀ (by norm_num) k2)
      have e2 : (2 : ℝ) ^ Int.log 2 y / 2 ^ ulpExp x
          = ((2 ^ (Int.log 2 y - ulpExp x).toNat : ℤ) : ℝ) := by
        push_cast
        rw [← zpow_natCast (2 : ℝ), Int.toNat_of_nonneg (by omega), zpow_sub₀ two_ne_zero]
      have : rne (x / 2 ^ ulpExp x) ≤ 2 ^ (Int.log 2 y - ulpExp x).toNat := by
        rw [← rne_int (2 ^ (Int.log 2 y - ulpExp x).toNat), ← e2]
        exact rne_mono (div_le_div_of_nonneg_right hb hpx.le)
      have : (rne (x / 2 ^ ulpExp x) : ℝ) ≤ ((2 ^ (Int.log 2 y - ulpExp x).toNat : ℤ) : ℝ) := by
        exact_mod_cast this
      rw [← e2, le_div_iff₀ hpx] at this
      exact this
    have b : (2 : ℝ) ^ Int.log 2 y ≤ fl y := by
      have e2 : (2 : ℝ) ^ Int.log 2 y / 2 ^ ulpExp y = ((2 ^ 52 : ℤ) : ℝ) := by
        rw [k1, ← zpow_sub₀ two_ne_zero]
        rw [show Int.log 2 y - (Int.log 2 y - 52) = 52 by ring]
        norm_num
      have : (2 ^ 52 : ℤ) ≤ rne (y / 2 ^ ulpExp y) := by
        rw [← rne_int (2 ^ 52), ← e2]
        exact rne_mono (div_le_div_of_nonneg_right hyl hpy.le)
      have : ((2 ^ 52 : ℤ) : ℝ) ≤ (rne (y / 2 ^ ulpExp y) : ℝ) := by exact_mod_cast this
      rw [← e2, div_le_iff₀ hpy] at this
      exact this
    exact a.trans b

theorem fl_nonneg {x : ℝ} (hx : 0 ≤ x) : 0 ≤ fl x := by
  unfold fl
  have : (0 : ℤ) ≤ rne (x / 2 ^ ulpExp x) := by
    have h0 : rne (0 : ℝ) = 0 := by exact_mod_cast rne_int 0
    rw [← h0]
    exact rne_mono (div_nonneg hx (two_zpow_pos _).le)
  have : (0 : ℝ) ≤ rne (x / 2 ^ ulpExp x) := by exact_mod_cast this
  exact mul_nonneg this (two_zpow_pos _).le

theorem fl_mono {x y : ℝ} (hx : 0 ≤ x) (h : x ≤ y) : fl x ≤ fl y := by
  rcases hx.eq_or_lt with e | e
  · rw [← e, fl_zero]; exact fl_nonneg (hx.trans h)
  · exact fl_mono_pos e h

/-- Natural multiples of a power of two below 53 bits are kept. -/
theorem fl_natMul {n : ℕ} {e : ℤ} (he : -1074 ≤ e) (hn : n ≤ 2 ^ 53) :
    fl (n * 2 ^ e) = n * 2 ^ e := by
  rcases Nat.eq_zero_or_pos n with rfl | h0
  · simp [fl_zero]
  have hp := two_zpow_pos e
  have hn0 : (0 : ℝ) < n := by exact_mod_cast h0
  rcases hn.eq_or_lt with h | h
  · apply fl_exact (m := 1) (k := e + 53)
    · rw [h, zpow_add₀ two_ne_zero]; push_cast; ring
    · apply ulp_le (by omega) (by positivity)
      rw [h, zpow_add₀ two_ne_zero, zpow_add₀ two_ne_zero]
      push_cast
      norm_num
      nlinarith
  · apply fl_exact (m := n) (k := e)
    · push_cast; ring
    · apply ulp_le he (by positivity)
      rw [zpow_add₀ two_ne_zero, mul_comm]
      apply mul_lt_mul_of_pos_left _ hp
      exact_mod_cast h

theorem fl_nat {n : ℕ} (hn : n ≤ 2 ^ 53) : fl (n : ℝ) = n := by
  have := fl_natMul (e := 0) (by norm_num) hn
  simpa using this

/-- The rounded value of a positive number of known size -/
theorem fl_eq {x : ℝ} {e : ℤ} {m : ℕ} (he : -1074 ≤ e) (h1 : 2 ^ 52 * (2 : ℝ) ^ e ≤ x)
    (h2 : x < 2 ^ 53 * (2 : ℝ) ^ e) (h3 : |x - m * 2 ^ e| < 2 ^ e / 2) : fl x = m * 2 ^ e := by
  have hp := two_zpow_pos e
  have hx : 0 < x := lt_of_lt_of_le (by positivity) h1
  have hl : Int.log 2 x = e + 52 := by
    apply log_eq_of
    · rw [zpow_add₀ two_ne_zero, mul_comm]; exact_mod_cast h1
    · rw [add_assoc, zpow_add₀ two_ne_zero, mul_comm]; exact_mod_cast h2
  have hu : ulpExp x = e := by unfold ulpExp; rw [abs_of_pos hx, hl]; omega
  unfold fl
  rw [hu]
  have h4 : |x / 2 ^ e - m| < 1 / 2 := by
    have : x / 2 ^ e - m = (x - m * 2 ^ e) / 2 ^ e := by field_simp
    rw [this, abs_div, abs_of_pos hp, div_lt_iff₀ hp]
    linarith
  have : rne (x / 2 ^ e) = m := by
    have h5 := rne_near (x / 2 ^ e)
    have h6 : |(rne (x / 2 ^ e) : ℝ) - m| < 1 := by
      have : (rne (x / 2 ^ e) : ℝ) - m = (rne (x / 2 ^ e) - x / 2 ^ e) + (x / 2 ^ e - m) := by ring
      rw [this]
      exact (abs_add_le _ _).trans_lt (by linarith)
    have h7 : |rne (x / 2 ^ e) - (m : ℤ)| < 1 := by exact_mod_cast h6
    have := Int.abs_lt_one_iff.1 h7
    omega
  rw [this]
  simp

/-- Relative error `2 ^ -53` in the normal range -/
theorem fl_rel {x : ℝ} (hx : (2 : ℝ) ^ (-1022 : ℤ) ≤ x) : |fl x - x| ≤ x / 2 ^ 53 := by
  have h0 : 0 < x := lt_of_lt_of_le (two_zpow_pos _) hx
  have hl : -1022 ≤ Int.log 2 x :=
    (Int.zpow_le_iff_le_log (b := 2) (by norm_num) h0).1 (by exact_mod_cast hx)
  have hu : ulpExp x = Int.log 2 x - 52 := by unfold ulpExp; rw [abs_of_pos h0]; omega
  have h1 := fl_err x
  have h2 := Int.zpow_log_le_self (b := 2) (by norm_num) h0
  push_cast at h2
  rw [hu, zpow_sub₀ two_ne_zero] at h1
  refine h1.trans ?_
  rw [div_div, div_le_div_iff₀ (by positivity) (by positivity)]
  norm_num
  nlinarith

/-- Rounding of a natural number to 53 binary digits, computable -/
def rndN (n : ℕ) : ℕ :=
  let s := Nat.log2 n - 52
  let q := n / 2 ^ s
  let r := n % 2 ^ s
  (if 2 * r < 2 ^ s then q else if 2 ^ s < 2 * r then q + 1 else if q % 2 = 0 then q else q + 1)
    * 2 ^ s

theorem fl_rndN (n : ℕ) {e : ℤ} (he : -1074 ≤ e) : fl (n * 2 ^ e) = rndN n * 2 ^ e := by
  rcases Nat.lt_or_ge n (2 ^ 53) with hn | hn
  · have h0 : Nat.log2 n - 52 = 0 := by
      rcases Nat.eq_zero_or_pos n with rfl | h
      · rfl
      · have := (Nat.log2_lt (by omega)).2 hn
        omega
    have : rndN n = n := by simp [rndN, h0, Nat.mod_one]
    rw [this]
    exact fl_natMul he hn.le
  · have hn0 : n ≠ 0 := by intro h; rw [h] at hn; norm_num at hn
    have hl : 53 ≤ Nat.log2 n := (Nat.le_log2 hn0).2 hn
    obtain ⟨s, hs⟩ : ∃ s, s = Nat.log2 n - 52 := ⟨_, rfl⟩
    have hp := two_zpow_pos e
    have hps : (0 : ℝ) < 2 ^ s := by positivity
    have hx : (0 : ℝ) < n * 2 ^ e := mul_pos (by exact_mod_cast Nat.pos_of_ne_zero hn0) hp
    have h1 : 2 ^ (s + 52) ≤ n := by
      have := Nat.log2_self_le hn0
      rwa [show Nat.log2 n = s + 52 by omega] at this
    have h2 : n < 2 ^ (s + 53) := by
      have := Nat.lt_log2_self (n := n)
      rwa [show Nat.log2 n + 1 = s + 53 by omega] at this
    have hlog : Int.log 2 ((n : ℝ) * 2 ^ e) = e + s + 52 := by
      apply log_eq_of
      · rw [show e + s + 52 = ((s + 52 : ℕ) : ℤ) + e by push_cast; ring, zpow_add₀ two_ne_zero,
          zpow_natCast]
        apply mul_le_mul_of_nonneg_right _ hp.le
        exact_mod_cast h1
      · rw [show e + s + 52 + 1 = ((s + 53 : ℕ) : ℤ) + e by push_cast; ring, zpow_add₀ two_ne_zero,
          zpow_natCast]
        apply mul_lt_mul_of_pos_right _ hp
        exact_mod_cast h2
    have hu : ulpExp ((n : ℝ) * 2 ^ e) = e + s := by
      unfold ulpExp; rw [abs_of_pos hx, hlog]; omega
    have hdiv : (n : ℝ) * 2 ^ e / 2 ^ (e + s) = n / 2 ^ s := by
      rw [zpow_add₀ two_ne_zero, zpow_natCast, mul_comm (2 ^ e : ℝ),
        mul_div_mul_right _ _ hp.ne']
    have hqr : (n : ℝ) / 2 ^ s = (n / 2 ^ s : ℕ) + ((n % 2 ^ s : ℕ) : ℝ) / 2 ^ s := by
      rw [div_eq_iff hps.ne', add_mul, div_mul_cancel₀ _ hps.ne']
      have := Nat.div_add_mod n (2 ^ s)
      rw [mul_comm] at this
      exact_mod_cast this.symm
    have hr0 : (0 : ℝ) ≤ ((n % 2 ^ s : ℕ) : ℝ) / 2 ^ s := div_nonneg (Nat.cast_nonneg _) hps.le
    have hr1 : ((n % 2 ^ s : ℕ) : ℝ) / 2 ^ s < 1 := by
      rw [div_lt_one hps]
      exact_mod_cast Nat.mod_lt n (Nat.two_pow_pos s)
    have hfl : ⌊(n : ℝ) / 2 ^ s⌋ = ((n / 2 ^ s : ℕ) : ℤ) := by
      rw [Int.floor_eq_iff, hqr, Int.cast_natCast]
      constructor <;> linarith
    have hsub : (n : ℝ) / 2 ^ s - (((n / 2 ^ s : ℕ) : ℤ) : ℝ) = ((n % 2 ^ s : ℕ) : ℝ) / 2 ^ s := by
      rw [hqr, Int.cast_natCast]; ring
    have c1 : ((n % 2 ^ s : ℕ) : ℝ) / 2 ^ s < 1 / 2 ↔ 2 * (n % 2 ^ s) < 2 ^ s := by
      rw [div_lt_div_iff₀ hps (by norm_num)]
      constructor
      · intro h; have : (2 : ℝ) * ((n % 2 ^ s : ℕ) : ℝ) < 2 ^ s := by linarith
        exact_mod_cast this
      · intro h; have : (2 : ℝ) * ((n % 2 ^ s : ℕ) : ℝ) < 2 ^ s := by exact_mod_cast h
        linarith
    have c2 : 1 / 2 < ((n % 2 ^ s : ℕ) : ℝ) / 2 ^ s ↔ 2 ^ s < 2 * (n % 2 ^ s) := by
      rw [div_lt_div_iff₀ (by norm_num) hps]
      constructor
      · intro h; have : (2 : ℝ) ^ s < 2 * ((n % 2 ^ s : ℕ) : ℝ) := by linarith
        exact_mod_cast this
      · intro h; have : (2 : ℝ) ^ s < 2 * ((n % 2 ^ s : ℕ) : ℝ) := by exact_mod_cast h
        linarith
    have c3 : Even (((n / 2 ^ s : ℕ) : ℤ)) ↔ n / 2 ^ s % 2 = 0 := by
      rw [Int.even_coe_nat, Nat.even_iff]
    have hr : rne ((n : ℝ) / 2 ^ s) = ((if 2 * (n % 2 ^ s) < 2 ^ s then n / 2 ^ s
        else if 2 ^ s < 2 * (n % 2 ^ s) then n / 2 ^ s + 1
        else if n / 2 ^ s % 2 = 0 then n / 2 ^ s else n / 2 ^ s + 1 : ℕ) : ℤ) := by
      unfold rne
      rw [hfl, hsub]
      simp only [c1, c2, c3]
      split_ifs <;> simp
    unfold fl
    rw [hu, hdiv, hr]
    unfold rndN
    rw [← hs]
    simp only []
    rw [zpow_add₀ two_ne_zero, zpow_natCast, Int.cast_natCast, Nat.cast_mul, Nat.cast_pow,
      Nat.cast_ofNat]
    ring

theorem timeF_rndN (n0 b : ℕ) {e : ℤ} (he : -1074 ≤ e) (j : ℕ) :
    timeF (n0 * 2 ^ e) (b * 2 ^ e) j = ((fun t => rndN (t + b))^[j] n0 : ℕ) * 2 ^ e := by
  induction j with
  | zero => rfl
  | succ j ih =>
    rw [Function.iterate_succ_apply', timeF, ih, ← add_mul, ← Nat.cast_add, fl_rndN _ he]

/-! ## Exact counting -/

/-- Specification: `dt` has few enough binary digits for `N` steps, that is `dt = b · 2 ^ e` with
`N · b ≤ 2 ^ 53`. -/
def FewDigits (dt : ℝ) (N : ℕ) : Prop := ∃ (b : ℕ) (e : ℤ), 0 < b ∧ -1074 ≤ e ∧ dt = b * 2 ^ e ∧ N * b ≤ 2 ^ 53

theorem FewDigits.mono {dt : ℝ} {N M : ℕ} (h : FewDigits dt N) (hM : M ≤ N) : FewDigits dt M := by
  obtain ⟨b, e, h1, h2, h3, h4⟩ := h
  exact ⟨b, e, h1, h2, h3, (Nat.mul_le_mul_right b hM).trans h4⟩

theorem timeF_exact {dt : ℝ} {N : ℕ} (h : FewDigits dt N) {j : ℕ} (hj : j ≤ N) :
    timeF 0 dt j = j * dt := by
  obtain ⟨b, e, h1, h2, rfl, h4⟩ := h
  induction j with
  | zero => simp [timeF]
  | succ j ih =>
    rw [timeF, ih (by omega)]
    have : (j : ℝ) * (b * 2 ^ e) + b * 2 ^ e = ((j + 1) * b : ℕ) * 2 ^ e := by push_cast; ring
    rw [this, fl_natMul h2 ((Nat.mul_le_mul_right b hj).trans h4)]
    push_cast; ring

theorem FewDigits.pos {dt : ℝ} {N : ℕ} (h : FewDigits dt N) : 0 < dt := by
  obtain ⟨b, e, h1, h2, rfl, h4⟩ := h
  exact mul_pos (by exact_mod_cast h1) (two_zpow_pos e)

theorem FewDigits.le {dt : ℝ} {N : ℕ} (h : FewDigits dt N) : N ≤ 2 ^ 53 := by
  obtain ⟨b, e, h1, h2, rfl, h4⟩ := h
  exact (Nat.le_mul_of_pos_right N h1).trans h4

theorem stepIndexF_exact {dt : ℝ} {N : ℕ} (h : FewDigits dt N) {j : ℕ} (hj : j ≤ N) :
    stepIndexF (timeF 0 dt j) dt = j := by
  unfold stepIndexF
  rw [timeF_exact h hj, mul_div_cancel_right₀ _ h.pos.ne', fl_nat (hj.trans h.le),
    truncZ_nonneg (by positivity), Int.floor_natCast]

/-- **C59, part: time steps with few digits.** If the step has few enough binary digits, the rounded
program does exactly the steps of the exact one and a probe has written exactly the same files after
every number of steps. (`TimeLoop` and `probeRun` are the subjects of `C31` and `C32`.) -/
theorem C59_few_digits_partial (dt : ℝ) (N : ℕ) (hd : FewDigits dt N) :
    (∀ tend t', TimeLoop tend dt 0 N t' ↔ TimeLoopF tend dt 0 N t') ∧
    (∀ nr nz fpf p A s0, probeRunF nr nz fpf p 0 dt A s0 N = probeRun nr nz fpf p 0 dt A s0 N) := by
  constructor
  · intro tend t'
    have key : ∀ n j : ℕ, j + n = N →
        (TimeLoop tend dt (j * dt) n t' ↔ TimeLoopF tend dt (timeF 0 dt j) n t') := by
      intro n
      induction n with
      | zero =>
        intro j hj
        rw [timeF_exact hd (by omega)]
        constructor
        · intro h; cases h with | exit _ h => exact .exit _ h
        · intro h; cases h with | exit _ h => exact .exit _ h
      | succ n ih =>
        intro j hj
        have e1 : (j : ℝ) * dt + dt = ((j + 1 : ℕ) : ℝ) * dt := by push_cast; ring
        constructor
        · intro h
          cases h with
          | iter _ _ _ h hr =>
            rw [e1] at hr
            refine .iter _ _ _ (by rwa [timeF_exact hd (by omega)]) ?_
            exact (ih (j + 1) (by omega)).1 hr
        · intro h
          cases h with
          | iter _ _ _ h hr =>
            refine .iter _ _ _ (by rwa [timeF_exact hd (by omega)] at h) ?_
            rw [e1]
            exact (ih (j + 1) (by omega)).2 hr
    have := key N 0 (by omega)
    simpa [timeF] using this
  · intro nr nz fpf p A s0
    have key : ∀ n ≤ N, probeRunF nr nz fpf p 0 dt A s0 n = probeRun nr nz fpf p 0 dt A s0 n := by
      intro n
      induction n with
      | zero => intro _; rfl
      | succ n ih =>
        intro hn
        rw [probeRunF, probeRun, ih (by omega)]
        congr 1
        funext s
        unfold probeStepF probeStep
        rw [stepIndexF_exact hd (by omega : n ≤ N), zero_add, mul_div_cancel_right₀ _ hd.pos.ne',
          truncZ_nonneg (by positivity), Int.floor_natCast]
    exact key N le_rfl

/-- Not vacuous: a step of `2 ^ -43` s (0.11 ps) for two million million steps. -/
example : FewDigits (2 ^ (-43 : ℤ)) (2 * 10 ^ 12) :=
  ⟨1, -43, by norm_num, by norm_num, by norm_num, by norm_num⟩

/-! ## Every step size: off by at most one -/

theorem timeF_err {dt : ℝ} (hdt : (2 : ℝ) ^ (-1022 : ℤ) ≤ dt) {j : ℕ} (hj : j ≤ 2 ^ 26) :
    |timeF 0 dt j - j * dt| ≤ (j : ℝ) ^ 2 / 2 ^ 53 * dt := by
  have h0 : 0 < dt := lt_of_lt_of_le (two_zpow_pos _) hdt
  induction j with
  | zero => simp [timeF]
  | succ j ih =>
    have ih := ih (by omega)
    rw [abs_le] at ih
    have hj' : ((j : ℝ) + 1) ≤ 2 ^ 26 := by exact_mod_cast hj
    have hj0 : (0 : ℝ) ≤ j := by positivity
    have hq : (j : ℝ) ^ 2 / 2 ^ 53 ≤ j := by
      rw [div_le_iff₀ (by positivity)]; nlinarith
    have hlow : 0 ≤ timeF 0 dt j := by nlinarith
    have hr := fl_rel (x := timeF 0 dt j + dt) (by linarith)
    rw [abs_le] at hr
    have hup : timeF 0 dt j + dt ≤ (2 * j + 1) * dt := by nlinarith
    have hup2 : (timeF 0 dt j + dt) / 2 ^ 53 ≤ (2 * j + 1) * dt / 2 ^ 53 :=
      div_le_div_of_nonneg_right hup (by positivity)
    have e : ((j : ℝ) + 1) ^ 2 / 2 ^ 53 * dt = (j : ℝ) ^ 2 / 2 ^ 53 * dt + (2 * j + 1) * dt / 2 ^ 53 := by
      ring
    rw [timeF, abs_le]
    push_cast
    rw [e]
    constructor <;> nlinarith

theorem timeF_mono {dt : ℝ} (hdt : (2 : ℝ) ^ (-1022 : ℤ) ≤ dt) : Monotone (timeF 0 dt) := by
  have h0 : 0 < dt := lt_of_lt_of_le (two_zpow_pos _) hdt
  have key : ∀ j, 0 ≤ timeF 0 dt j ∧ timeF 0 dt j ≤ timeF 0 dt (j + 1) := by
    intro j
    induction j with
    | zero => exact ⟨le_rfl, by simp only [timeF]; exact fl_nonneg (by linarith)⟩
    | succ j ih =>
      refine ⟨ih.1.trans ih.2, ?_⟩
      simp only [timeF]
      have := ih.2
      simp only [timeF] at this
      exact fl_mono (by linarith [ih.1]) (by linarith)
  exact monotone_nat_of_le_succ fun j => (key j).2

theorem timeF_nonneg {dt : ℝ} (hdt : (2 : ℝ) ^ (-1022 : ℤ) ≤ dt) (j : ℕ) : 0 ≤ timeF 0 dt j :=
  timeF_mono hdt (Nat.zero_le j)

/-- **C59, part: every step size.** In the first `2 ^ 26` steps the index the program computes for step
`j` is `j` or `j - 1`. -/
theorem C59_index_partial (dt : ℝ) (hdt : (2 : ℝ) ^ (-1022 : ℤ) ≤ dt) (j : ℕ) (hj : j ≤ 2 ^ 26) :
    stepIndexF (timeF 0 dt j) dt = j ∨ stepIndexF (timeF 0 dt j) dt = j - 1 := by
  have h0 : 0 < dt := lt_of_lt_of_le (two_zpow_pos _) hdt
  rcases Nat.eq_zero_or_pos j with rfl | hpos
  · left
    simp [stepIndexF, timeF, fl_zero, truncZ]
  have hj1 : (1 : ℝ) ≤ j := by exact_mod_cast hpos
  have hj2 : (j : ℝ) ≤ 2 ^ 26 := by exact_mod_cast hj
  have he := timeF_err hdt hj
  have hb : (j : ℝ) ^ 2 / 2 ^ 53 ≤ 1 / 2 := by
    rw [div_le_iff₀ (by positivity)]; norm_num; nlinarith
  set q := timeF 0 dt j / dt with hq
  have hq1 : |q - j| ≤ 1 / 2 := by
    have e1 : q - j = (timeF 0 dt j - j * dt) / dt := by rw [hq]; field_simp
    rw [e1, abs_div, abs_of_pos h0, div_le_iff₀ h0]
    exact he.trans (by nlinarith)
  rw [abs_le] at hq1
  have hr := fl_rel (x := q) (by
    have : (2 : ℝ) ^ (-1022 : ℤ) ≤ 2 ^ (-1 : ℤ) := zpow_le_zpow_right₀ (by norm_num) (by norm_num)
    norm_num at this
    norm_num
    linarith)
  rw [abs_le] at hr
  have hs : q / 2 ^ 53 ≤ 1 / 4 := by
    rw [div_le_iff₀ (by positivity)]; norm_num; linarith
  have hnn : 0 ≤ fl q := by linarith
  unfold stepIndexF
  rw [truncZ_nonneg hnn]
  have f1 : (j : ℤ) - 1 ≤ ⌊fl q⌋ := Int.le_floor.2 (by push_cast; linarith)
  have f2 : ⌊fl q⌋ < (j : ℤ) + 1 := Int.floor_lt.2 (by push_cast; linarith)
  omega

theorem timeLoopF_iff (tend dt : ℝ) (n : ℕ) (t' : ℝ) : TimeLoopF tend dt 0 n t' ↔
    t' = timeF 0 dt n ∧ tend ≤ timeF 0 dt n ∧ ∀ m < n, timeF 0 dt m < tend := by
  have key : ∀ n j : ℕ, TimeLoopF tend dt (timeF 0 dt j) n t' ↔
      t' = timeF 0 dt (j + n) ∧ tend ≤ timeF 0 dt (j + n) ∧ ∀ m < n, timeF 0 dt (j + m) < tend := by
    intro n
    induction n with
    | zero =>
      intro j
      constructor
      · intro h; cases h with | exit _ h => exact ⟨rfl, not_lt.1 h, by simp⟩
      · rintro ⟨rfl, h, -⟩; exact .exit _ (not_lt.2 h)
    | succ n ih =>
      intro j
      have ih := ih (j + 1)
      constructor
      · intro h
        cases h with
        | iter _ _ _ h hr =>
          obtain ⟨a, b, c⟩ := ih.1 hr
          rw [show j + (n + 1) = j + 1 + n by omega]
          refine ⟨a, b, ?_⟩
          rintro (_ | m) hm
          · exact h
          · rw [show j + (m + 1) = j + 1 + m by omega]; exact c m (by omega)
      · rintro ⟨a, b, c⟩
        refine .iter _ _ _ (c 0 (by omega)) (ih.2 ?_)
        rw [show j + 1 + n = j + (n + 1) by omega]
        refine ⟨a, b, fun m hm => ?_⟩
        rw [show j + 1 + m = j + (m + 1) by omega]
        exact c (m + 1) (by omega)
  simpa [timeF] using key n 0

/-- **C59, part: run length.** If the exact loop does `N < 2 ^ 26` steps, the program stops, after
`N - 1`, `N` or `N + 1` steps. -/
theorem C59_run_length_partial (dt tend T : ℝ) (hdt : (2 : ℝ) ^ (-1022 : ℤ) ≤ dt) (N : ℕ)
    (hN : N < 2 ^ 26) (h : TimeLoop tend dt 0 N T) :
    ∃ n t', TimeLoopF tend dt 0 n t' ∧ N ≤ n + 1 ∧ n ≤ N + 1 := by
  have h0 : 0 < dt := lt_of_lt_of_le (two_zpow_pos _) hdt
  obtain ⟨r, ⟨hr, h1, h2, h3⟩, hu⟩ := C31_steps 0 tend dt h0
  have hNr : N = r.1 := by
    have hTL : ∀ {t n t'}, TimeLoop tend dt t n t' →
        t' = t + n * dt ∧ tend ≤ t + n * dt ∧ ∀ m : ℕ, m < n → t + m * dt < tend := by
      intro t n t' h
      induction h with
      | exit t h => exact ⟨by simp, by simpa using h, by simp⟩
      | iter t n t' h hr ih =>
        obtain ⟨a, b, c⟩ := ih
        refine ⟨by rw [a]; push_cast; ring, by push_cast; linarith, ?_⟩
        rintro (_ | m) hm
        · simpa using h
        · have := c m (by omega)
          push_cast
          linarith
    obtain ⟨a, b, c⟩ := hTL h
    exact congrArg Prod.fst (hu (N, T) ⟨h, b, c, a⟩)
  rw [zero_add, ← hNr] at h1
  rw [← hNr] at h2
  have err : ∀ j : ℕ, j ≤ 2 ^ 26 → |timeF 0 dt j - j * dt| ≤ 1 / 2 * dt := by
    intro j hj
    have hj2 : (j : ℝ) ≤ 2 ^ 26 := by exact_mod_cast hj
    have hb : (j : ℝ) ^ 2 / 2 ^ 53 ≤ 1 / 2 := by
      rw [div_le_iff₀ (by positivity)]; norm_num
      have : (0 : ℝ) ≤ j := by positivity
      nlinarith
    exact (timeF_err hdt hj).trans (by nlinarith)
  have hstop : tend ≤ timeF 0 dt (N + 1) := by
    have := abs_le.1 (err (N + 1) (by omega))
    push_cast at this
    linarith [this.1]
  have hex : ∃ n, tend ≤ timeF 0 dt n := ⟨_, hstop⟩
  classical
  refine ⟨Nat.find hex, _, (timeLoopF_iff _ _ _ _).2 ⟨rfl, Nat.find_spec hex, fun m hm =>
    not_le.1 (Nat.find_min hex hm)⟩, ?_, Nat.find_le hstop⟩
  by_contra hlt
  have hm : Nat.find hex + 1 < N := by omega
  have a := h2 _ hm
  have b := Nat.find_spec hex
  have c := abs_le.1 (err (Nat.find hex) (by omega))
  push_cast at a
  linarith [c.2]

/-- Not vacuous: a picosecond. -/
example : (2 : ℝ) ^ (-1022 : ℤ) ≤ 1 / 1000000000000 := by
  have : (2 : ℝ) ^ (-1022 : ℤ) ≤ 2 ^ (-40 : ℤ) := zpow_le_zpow_right₀ (by norm_num) (by norm_num)
  exact this.trans (by norm_num)

/-! ## The shipped configurations -/

/-- The value `atof` gives for `1e-12`, the step of test/functional/parameters.xml.tmpl.in:30 -/
theorem fl_1em12 : fl 1e-12 = (4951760157141521 : ℕ) * 2 ^ (-92 : ℤ) := by
  apply fl_eq (by norm_num) <;> norm_num [abs_lt]

/-- The value `atof` gives for `1e-13`, the step of parameters.xml.in:35 -/
theorem fl_1em13 : fl 1e-13 = (7922816251426434 : ℕ) * 2 ^ (-96 : ℤ) := by
  apply fl_eq (by norm_num) <;> norm_num [abs_lt]

/-- The value `atof` gives for `2.2e-11`, the end of test/functional/parameters.xml.tmpl.in:29 -/
theorem fl_22em12 : fl 2.2e-11 = (6808670216069592 : ℕ) * 2 ^ (-88 : ℤ) := by
  apply fl_eq (by norm_num) <;> norm_num [abs_lt]

theorem timeF_12 (j : ℕ) : timeF 0 (fl 1e-12) j
    = ((fun t => rndN (t + 4951760157141521))^[j] 0 : ℕ) * 2 ^ (-92 : ℤ) := by
  have := timeF_rndN 0 4951760157141521 (e := -92) (by norm_num) j
  rw [← this, fl_1em12]
  simp

theorem timeF_13 (j : ℕ) : timeF 0 (fl 1e-13) j
    = ((fun t => rndN (t + 7922816251426434))^[j] 0 : ℕ) * 2 ^ (-96 : ℤ) := by
  have := timeF_rndN 0 7922816251426434 (e := -96) (by norm_num) j
  rw [← this, fl_1em13]
  simp

theorem dt12_normal : (2 : ℝ) ^ (-1022 : ℤ) ≤ fl 1e-12 := by
  have : (2 : ℝ) ^ (-1022 : ℤ) ≤ 2 ^ (-40 : ℤ) := zpow_le_zpow_right₀ (by norm_num) (by norm_num)
  rw [fl_1em12]
  exact this.trans (by norm_num)

/-- **C59 fails: run length of the functional test.** With the times of
test/functional/parameters.xml.tmpl.in (end 2.2e-11, step 1e-12) the exact loop does 22 steps, the
program 23. -/
theorem C59_run_length_violated :
    TimeLoop 2.2e-11 1e-12 0 22 (2.2e-11) ∧ ∃ t', TimeLoopF (fl 2.2e-11) (fl 1e-12) 0 23 t' := by
  constructor
  · obtain ⟨r, ⟨hr, h1, h2, h3⟩, -⟩ := C31_steps 0 2.2e-11 1e-12 (by norm_num)
    have e : r.1 = 22 := by
      apply le_antisymm
      · by_contra h
        have := h2 22 (by omega)
        norm_num at this
      · by_contra h
        have : (r.1 : ℝ) ≤ 21 := by exact_mod_cast (by omega : r.1 ≤ 21)
        norm_num at h1
        nlinarith
    rw [h3, e] at hr
    norm_num at hr ⊢
    exact hr
  · refine ⟨_, (timeLoopF_iff _ _ _ _).2 ⟨rfl, ?_, ?_⟩⟩
    · rw [timeF_12, fl_22em12, show (fun t => rndN (t + 4951760157141521))^[23] 0
        = 113890483614254976 by decide +kernel]
      norm_num
    · intro m hm
      refine lt_of_le_of_lt (timeF_mono dt12_normal (by omega : m ≤ 22)) ?_
      rw [timeF_12, fl_22em12, show (fun t => rndN (t + 4951760157141521))^[22] 0
        = 108938723457113456 by decide +kernel]
      norm_num

theorem stepIndexF_of {t dt : ℝ} {k : ℕ} (h1 : (k : ℝ) ≤ fl (t / dt)) (h2 : fl (t / dt) < k + 1) :
    stepIndexF t dt = k := by
  unfold stepIndexF
  rw [truncZ_nonneg (le_trans (by positivity) h1), Int.floor_eq_iff]
  push_cast
  exact ⟨h1, h2⟩

/-- **C59 fails: a probe fires twice.** With the step 1e-13 of parameters.xml.in the steps 5 and 6 have
the same index, so all probes of that file with schedule 5 write two records in a row. -/
theorem C59_probe_twice_violated :
    stepIndexF (timeF 0 (fl 1e-13) 5) (fl 1e-13) = 5 ∧
    stepIndexF (timeF 0 (fl 1e-13) 6) (fl 1e-13) = 5 ∧
    ∀ nr nz fpf p A s0 s, p.schedule = 5 →
      probeRunF nr nz fpf p 0 (fl 1e-13) A s0 5 = some s → ∀ s', 
      probeRunF nr nz fpf p 0 (fl 1e-13) A s0 7 = some s' → s'.step_number = s.step_number + 2 := by
  have e5 : stepIndexF (timeF 0 (fl 1e-13) 5) (fl 1e-13) = 5 := by
    have : fl (timeF 0 (fl 1e-13) 5 / fl 1e-13) = (5 * 2 ^ 50 : ℕ) * 2 ^ (-50 : ℤ) := by
      rw [timeF_13, fl_1em13, show (fun t => rndN (t + 7922816251426434))^[5] 0
        = 39614081257132168 by rfl]
      apply fl_eq (by norm_num) <;> norm_num [abs_lt]
    apply stepIndexF_of <;> rw [this] <;> norm_num
  have e6 : stepIndexF (timeF 0 (fl 1e-13) 6) (fl 1e-13) = 5 := by
    have : fl (timeF 0 (fl 1e-13) 6 / fl 1e-13) = (6 * 2 ^ 50 - 1 : ℕ) * 2 ^ (-50 : ℤ) := by
      rw [timeF_13, fl_1em13, show (fun t => rndN (t + 7922816251426434))^[6] 0
        = 47536897508558600 by rfl]
      apply fl_eq (by norm_num) <;> norm_num [abs_lt]
    apply stepIndexF_of <;> rw [this] <;> norm_num
  refine ⟨e5, e6, ?_⟩
  intro nr nz fpf p A s0 s hp h s' h'
  rw [probeRunF, probeRunF, h] at h'
  simp only [Option.bind_some] at h'
  unfold probeStepF at h'
  rw [e5, e6, hp] at h'
  norm_num at h'
  by_cases hf : fpf = 0
  · simp [hf] at h'
  · simp only [hf, if_false] at h'
    cases h1 : readCells nr nz (A 5) p.cells with
    | none => simp [h1] at h'
    | some l1 =>
      cases h2 : readCells nr nz (A 6) p.cells with
      | none => simp [h1, h2] at h'
      | some l2 =>
        simp only [h1, h2, Option.map_some, Option.bind_some, Option.some.injEq] at h'
        rw [← h']

/-- **C59 fails: an index is skipped.** With a step of 1e-12 no step at all has index 7: a probe with
schedule 7 misses its second record. -/
theorem C59_probe_missed_violated (j : ℕ) : stepIndexF (timeF 0 (fl 1e-12) j) (fl 1e-12) ≠ 7 := by
  have hpos : 0 < fl 1e-12 := lt_of_lt_of_le (two_zpow_pos _) dt12_normal
  have e7 : fl (timeF 0 (fl 1e-12) 7 / fl 1e-12) = (7 * 2 ^ 50 - 1 : ℕ) * 2 ^ (-50 : ℤ) := by
    rw [timeF_12, fl_1em12, show (fun t => rndN (t + 4951760157141521))^[7] 0
      = 34662321099990644 by rfl]
    apply fl_eq (by norm_num) <;> norm_num [abs_lt]
  have e8 : fl (timeF 0 (fl 1e-12) 8 / fl 1e-12) = (8 : ℕ) := by
    rw [timeF_12, fl_1em12, show (fun t => rndN (t + 4951760157141521))^[8] 0
      = 39614081257132168 by rfl, ← fl_nat (n := 8) (by norm_num)]
    congr 1
    norm_num
  have mono : ∀ {a b : ℕ}, a ≤ b →
      fl (timeF 0 (fl 1e-12) a / fl 1e-12) ≤ fl (timeF 0 (fl 1e-12) b / fl 1e-12) := by
    intro a b h
    exact fl_mono (div_nonneg (timeF_nonneg dt12_normal _) hpos.le)
      (div_le_div_of_nonneg_right (timeF_mono dt12_normal h) hpos.le)
  intro h
  unfold stepIndexF at h
  have hnn : 0 ≤ fl (timeF 0 (fl 1e-12) j / fl 1e-12) :=
    fl_nonneg (div_nonneg (timeF_nonneg dt12_normal _) hpos.le)
  rw [truncZ_nonneg hnn, Int.floor_eq_iff] at h
  rcases Nat.lt_or_ge j 8 with hj | hj
  · have := mono (by omega : j ≤ 7)
    rw [e7] at this
    norm_num at this h
    linarith [h.1]
  · have := mono hj
    rw [e8] at this
    norm_num at this h
    linarith [h.2]

/-- **C59 fails: the loop can stall.** When the step is below half a unit in the last place of the time,
the time never advances and the run never ends, while the exact loop needs one step. -/
theorem C59_stall_violated :
    TimeLoop (2 ^ 53 + 1) 1 (2 ^ 53) 1 (2 ^ 53 + 1) ∧
    ¬ ∃ n t', TimeLoopF (2 ^ 53 + 1) 1 (2 ^ 53) n t' := by
  constructor
  · exact .iter _ _ _ (by norm_num) (.exit _ (by norm_num))
  · have e : fl ((2 : ℝ) ^ 53 + 1) = 2 ^ 53 := by
      have := fl_rndN (2 ^ 53 + 1) (e := 0) (by norm_num)
      rw [show rndN (2 ^ 53 + 1) = 2 ^ 53 by rfl] at this
      norm_num at this ⊢
      exact this
    rintro ⟨n, t', h⟩
    induction n with
    | zero => cases h with | exit _ h => norm_num at h
    | succ n ih =>
      cases h with
      | iter _ _ _ h hr => rw [e] at hr; exact ih hr

end Verif
