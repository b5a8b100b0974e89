import Mathlib.Analysis.SpecialFunctions.Exp
import Mathlib.Analysis.Complex.Exponential
import Mathlib.Algebra.BigOperators.Intervals

/-!
# Bounds of the exponential in whole numbers

Used to check the table of the sampler (MjTable.lean). All numbers are in units of `10 ^ -30`.
-/

namespace Verif

/-- the unit -/
def SC : ℕ := 10 ^ 30

/-- sum of the next `n` terms of the series, rounded down -/
def tayLo (x : ℕ) : ℕ → ℕ → ℕ → ℕ → ℕ
  | 0, _, _, acc => acc
  | n + 1, k, term, acc => tayLo x n (k + 1) (term * x / (SC * (k + 1))) (acc + term)

/-- sum of the next `n` terms of the series and twice the term after them, rounded up -/
def tayHi (x : ℕ) : ℕ → ℕ → ℕ → ℕ → ℕ
  | 0, _, term, acc => acc + 2 * term
  | n + 1, k, term, acc => tayHi x n (k + 1) (term * x / (SC * (k + 1)) + 1) (acc + term)

def sqLo : ℕ → ℕ → ℕ
  | 0, p => p
  | n + 1, p => sqLo n (p * p / SC)

def sqHi : ℕ → ℕ → ℕ
  | 0, p => p
  | n + 1, p => sqHi n (p * p / SC + 1)

/-- lower and upper bound of the exponential of a number from 0 to 128 -/
def expLo (x : ℕ) : ℕ := sqLo 8 (tayLo (x / 256) 22 0 SC 0)
def expHi (x : ℕ) : ℕ := sqHi 8 (tayHi (x / 256 + 1) 22 0 SC 0)

theorem SC_pos : (0 : ℝ) < SC := by norm_num [SC]

theorem natdiv_le (a b : ℕ) : ((a / b : ℕ) : ℝ) ≤ (a : ℝ) / b := Nat.cast_div_le

theorem le_natdiv (a b : ℕ) (hb : 0 < b) : (a : ℝ) / b ≤ ((a / b : ℕ) : ℝ) + 1 := by
  rw [div_le_iff₀ (by exact_mod_cast hb)]
  have := (Nat.lt_mul_div_succ a hb).le
  have h2 : (a : ℝ) ≤ (b * (a / b + 1) : ℕ) := by exact_mod_cast this
  push_cast at h2 ⊢
  linarith

theorem tayLo_le (x : ℕ) (n k term acc : ℕ) (h : (term : ℝ) ≤ SC * ((x / SC : ℝ) ^ k / k.factorial)) :
    (tayLo x n k term acc : ℝ) ≤ acc + SC * ∑ j ∈ Finset.Ico k (k + n), (x / SC : ℝ) ^ j / j.factorial := by
  induction n generalizing k term acc with
  | zero => simp [tayLo]
  | succ n ih =>
    have h' : ((term * x / (SC * (k + 1)) : ℕ) : ℝ) ≤ SC * ((x / SC : ℝ) ^ (k + 1) / (k + 1).factorial) := by
      refine (natdiv_le _ _).trans ?_
      push_cast
      have e : (SC : ℝ) * ((x / SC : ℝ) ^ (k + 1) / (k + 1).factorial)
          = SC * ((x / SC : ℝ) ^ k / k.factorial) * x / (SC * (k + 1)) := by
        rw [Nat.factorial_succ]
        push_cast
        have := SC_pos.ne'
        have : (k.factorial : ℝ) ≠ 0 := by exact_mod_cast k.factorial_ne_zero
        field_simp
        rw [pow_succ]
        field_simp
      rw [e]
      have := SC_pos
      gcongr
    have := ih (k + 1) _ (acc + term) h'
    rw [tayLo]
    refine this.trans ?_
    rw [Finset.sum_eq_sum_Ico_succ_bot (show k < k + (n + 1) by omega), show k + 1 + n = k + (n + 1) by ring]
    push_cast
    linarith

theorem le_tayHi (x : ℕ) (n k term acc : ℕ) (h : SC * ((x / SC : ℝ) ^ k / k.factorial) ≤ (term : ℝ)) :
    (acc : ℝ) + SC * ((∑ j ∈ Finset.Ico k (k + n), (x / SC : ℝ) ^ j / j.factorial)
      + 2 * ((x / SC : ℝ) ^ (k + n) / (k + n).factorial)) ≤ tayHi x n k term acc := by
  induction n generalizing k term acc with
  | zero =>
    simp only [tayHi, add_zero, Finset.Ico_self, Finset.sum_empty, zero_add]
    push_cast
    linarith
  | succ n ih =>
    have h' : SC * ((x / SC : ℝ) ^ (k + 1) / (k + 1).factorial) ≤ ((term * x / (SC * (k + 1)) + 1 : ℕ) : ℝ) := by
      have h2 := le_natdiv (term * x) (SC * (k + 1)) (by norm_num [SC])
      push_cast at h2 ⊢
      refine le_trans ?_ h2
      have e : (SC : ℝ) * ((x / SC : ℝ) ^ (k + 1) / (k + 1).factorial)
          = SC * ((x / SC : ℝ) ^ k / k.factorial) * x / (SC * (k + 1)) := by
        rw [Nat.factorial_succ]
        push_cast
        have := SC_pos.ne'
        have : (k.factorial : ℝ) ≠ 0 := by exact_mod_cast k.factorial_ne_zero
        field_simp
        rw [pow_succ]
        field_simp
      rw [e]
      have := SC_pos
      gcongr
    have := ih (k + 1) _ (acc + term) h'
    rw [tayHi]
    refine le_trans ?_ this
    rw [Finset.sum_eq_sum_Ico_succ_bot (show k < k + (n + 1) by omega), show k + 1 + n = k + (n + 1) by ring]
    push_cast
    linarith

theorem sqLo_le (n p : ℕ) {y : ℝ} (h : (p : ℝ) ≤ SC * y) : (sqLo n p : ℝ) ≤ SC * y ^ (2 ^ n) := by
  induction n generalizing p y with
  | zero => simpa [sqLo] using h
  | succ n ih =>
    rw [sqLo, pow_succ', pow_mul]
    apply ih
    refine (natdiv_le _ _).trans ?_
    rw [div_le_iff₀ SC_pos]
    push_cast
    have : (p : ℝ) * p ≤ (SC * y) * (SC * y) := mul_self_le_mul_self (Nat.cast_nonneg _) h
    linarith [this, show (SC * y) * (SC * y) = (SC : ℝ) * y ^ 2 * SC by ring]

theorem le_sqHi (n p : ℕ) {y : ℝ} (hy : 0 ≤ y) (h : SC * y ≤ (p : ℝ)) : SC * y ^ (2 ^ n) ≤ (sqHi n p : ℝ) := by
  induction n generalizing p y with
  | zero => simpa [sqHi] using h
  | succ n ih =>
    rw [sqHi, pow_succ', pow_mul]
    apply ih _ (by positivity)
    have h2 := le_natdiv (p * p) SC (by norm_num [SC])
    push_cast at h2 ⊢
    refine le_trans ?_ h2
    rw [le_div_iff₀ SC_pos]
    have := SC_pos
    have : (SC * y) * (SC * y) ≤ (p : ℝ) * p := mul_self_le_mul_self (by positivity) h
    linarith [this, show (SC * y) * (SC * y) = (SC : ℝ) * y ^ 2 * SC by ring]

theorem expLo_le (x : ℕ) : (expLo x : ℝ) ≤ SC * Real.exp (x / SC) := by
  have hS := SC_pos
  have h1 := tayLo_le (x / 256) 22 0 SC 0 (by simp)
  have h2 := Real.sum_le_exp_of_nonneg (x := ((x / 256 : ℕ) : ℝ) / SC) (by positivity) 22
  have h3 : ((tayLo (x / 256) 22 0 SC 0 : ℕ) : ℝ) ≤ SC * Real.exp (((x / 256 : ℕ) : ℝ) / SC) := by
    refine h1.trans ?_
    rw [Nat.cast_zero, zero_add, zero_add, ← Finset.range_eq_Ico]
    gcongr
  refine (sqLo_le 8 _ h3).trans ?_
  rw [← Real.exp_nat_mul]
  gcongr
  have := natdiv_le x 256
  rw [← mul_div_assoc]
  gcongr
  push_cast at this ⊢
  linarith

theorem le_expHi (x : ℕ) (hx : x ≤ 128 * SC) : SC * Real.exp (x / SC) ≤ (expHi x : ℝ) := by
  have hS := SC_pos
  have hd : ((x / 256 + 1 : ℕ) : ℝ) ≤ SC := by
    have : x / 256 + 1 ≤ SC := by
      unfold SC at hx ⊢
      omega
    exact_mod_cast this
  have h1 := le_tayHi (x / 256 + 1) 22 0 SC 0 (by simp)
  have h2 := Real.exp_bound' (x := ((x / 256 + 1 : ℕ) : ℝ) / SC) (by positivity) (by rw [div_le_one hS]; exact hd)
    (n := 22) (by norm_num)
  have h3 : SC * Real.exp (((x / 256 + 1 : ℕ) : ℝ) / SC) ≤ ((tayHi (x / 256 + 1) 22 0 SC 0 : ℕ) : ℝ) := by
    refine le_trans ?_ h1
    rw [Nat.cast_zero, zero_add, zero_add, ← Finset.range_eq_Ico]
    refine mul_le_mul_of_nonneg_left (h2.trans ?_) hS.le
    gcongr
    have hp : 0 ≤ (((x / 256 + 1 : ℕ) : ℝ) / SC) ^ 22 / (Nat.factorial 22) := by positivity
    have : (((x / 256 + 1 : ℕ) : ℝ) / SC) ^ 22 * ((22 : ℕ) + 1) / ((Nat.factorial 22 : ℕ) * (22 : ℕ))
        = (((x / 256 + 1 : ℕ) : ℝ) / SC) ^ 22 / (Nat.factorial 22) * (23 / 22) := by
      push_cast
      field_simp
      norm_num
    rw [this]
    nlinarith
  refine le_trans ?_ (le_sqHi 8 _ (Real.exp_pos _).le h3)
  rw [← Real.exp_nat_mul]
  gcongr
  have := le_natdiv x 256 (by norm_num)
  rw [← mul_div_assoc]
  gcongr
  push_cast at this ⊢
  linarith

end Verif
