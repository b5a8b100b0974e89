import Verif.FftProps
import Mathlib.Analysis.SpecialFunctions.Trigonometric.Bounds
import Mathlib.Analysis.Real.Pi.Bounds

/-!
# C41 with the constant of the code

`constant::PI` is a decimal literal.  With a constant `P` in place of π the FFT differs from the Fourier sum by at most
`p |P - π| Σ|a_j|`.
-/

namespace Verif

theorem twiddle_norm (P : ℝ) (s k : ℕ) : ‖twiddle P s k‖ = 1 := by
  unfold twiddle
  exact Complex.norm_exp_ofReal_mul_I _

theorem twiddle_near {s k : ℕ} (hk : k < s) (P : ℝ) :
    ‖twiddle P s k - eps (2 * s) k‖ ≤ |P - Real.pi| := by
  rw [← twiddle_eq (by omega) k]
  unfold twiddle
  have hs : (0 : ℝ) < s := by exact_mod_cast (show 0 < s by omega)
  set u : ℝ := -P * 2 * k / (s * 2) with hu
  set v : ℝ := -Real.pi * 2 * k / (s * 2) with hv
  have e : Complex.exp ((u : ℂ) * Complex.I) - Complex.exp ((v : ℂ) * Complex.I) =
      Complex.exp ((v : ℂ) * Complex.I) * (Complex.exp (Complex.I * ((u - v : ℝ) : ℂ)) - 1) := by
    rw [mul_sub, ← Complex.exp_add, mul_one]
    congr 2
    push_cast; ring
  rw [e, norm_mul, Complex.norm_exp_ofReal_mul_I, one_mul]
  refine le_trans Real.norm_exp_I_mul_ofReal_sub_one_le ?_
  rw [Real.norm_eq_abs]
  have e2 : u - v = -(P - Real.pi) * (k / s) := by
    rw [hu, hv]; field_simp; ring
  rw [e2, abs_mul, abs_neg]
  have hks : |(k : ℝ) / s| ≤ 1 := by
    rw [abs_of_nonneg (by positivity), div_le_one hs]
    exact_mod_cast hk.le
  calc |P - Real.pi| * |(k : ℝ) / s| ≤ |P - Real.pi| * 1 := by gcongr
    _ = _ := mul_one _

theorem eps_norm (N x : ℕ) : ‖eps N x‖ = 1 := by
  unfold eps
  have : -(2 * (Real.pi : ℂ) * Complex.I * x / N) = ((-(2 * Real.pi * x / N) : ℝ) : ℂ) * Complex.I := by
    push_cast; ring
  rw [this, Complex.norm_exp_ofReal_mul_I]

/-- contents after the passes up to step `2^q`, with weights near the roots of unity -/
def FftErr (δ : ℝ) (p q : ℕ) (a A : CArr) : Prop :=
  ∃ w : ℕ → ℕ → ℂ, (∀ j < 2 ^ q, ∀ k < 2 ^ q, ‖w j k - eps (2 ^ q) (j * k)‖ ≤ q * δ) ∧
    ∀ t < 2 ^ (p - q), ∀ k < 2 ^ q, A (t * 2 ^ q + k) =
      ∑ j ∈ Finset.range (2 ^ q), a (j * 2 ^ (p - q) + brev (p - q) t) * w j k

theorem mul_near {x y u v : ℂ} {d e : ℝ} (hx : ‖x‖ = 1) (hv : ‖v‖ = 1) (h1 : ‖x - y‖ ≤ d) (h2 : ‖u - v‖ ≤ e) :
    ‖x * u - y * v‖ ≤ e + d := by
  have : x * u - y * v = x * (u - v) + (x - y) * v := by ring
  rw [this]
  refine le_trans (norm_add_le _ _) ?_
  rw [norm_mul, norm_mul, hx, hv]
  linarith

theorem FftErr.next {P : ℝ} {p q : ℕ} (hq : q < p) {a A c : CArr} (h : FftErr |P - Real.pi| p q a A)
    (hc : ∀ i < 2 ^ p, c i =
      if i % (2 * 2 ^ q) < 2 ^ q then A i + twiddle P (2 ^ q) (i % (2 * 2 ^ q)) * A (i + 2 ^ q)
        else A (i - 2 ^ q) - twiddle P (2 ^ q) ((i - 2 ^ q) % (2 * 2 ^ q)) * A i) :
    FftErr |P - Real.pi| p (q + 1) a c := by
  obtain ⟨w, hw, h⟩ := h
  obtain ⟨m, hm⟩ : ∃ m, p - q = m + 1 := ⟨p - q - 1, by omega⟩
  have hm' : p - (q + 1) = m := by omega
  have hp : p = q + 1 + m := by omega
  rw [hm] at h
  unfold FftErr
  rw [hm']
  set s := 2 ^ q with hsdef
  have hs : 0 < s := by positivity
  have hs2 : 2 ^ (q + 1) = 2 * s := by rw [pow_succ]; ring
  have hN : 2 ^ p = 2 * s * 2 ^ m := by rw [hp, pow_add, hs2]
  rw [hs2]
  have v0 : ∀ t < 2 ^ m, ∀ k < s, A (t * (2 * s) + k) =
      ∑ j ∈ Finset.range s, a (2 * j * 2 ^ m + brev m t) * w j k := by
    intro t ht k hk
    have := h (2 * t) (by rw [pow_succ]; omega) k hk
    rw [show 2 * t * s + k = t * (2 * s) + k by ring] at this
    rw [this]
    apply Finset.sum_congr rfl
    intro j _
    congr 2
    rw [brev, pow_succ]
    simp
    ring
  have v1 : ∀ t < 2 ^ m, ∀ k < s, A (t * (2 * s) + k + s) =
      ∑ j ∈ Finset.range s, a ((2 * j + 1) * 2 ^ m + brev m t) * w j k := by
    intro t ht k hk
    have := h (2 * t + 1) (by rw [pow_succ]; omega) k hk
    rw [show (2 * t + 1) * s + k = t * (2 * s) + k + s by ring] at this
    rw [this]
    apply Finset.sum_congr rfl
    intro j _
    congr 2
    rw [brev, pow_succ]
    have e1 : (2 * t + 1) % 2 = 1 := by omega
    have e2 : (2 * t + 1) / 2 = t := by omega
    rw [e1, e2]
    ring
  have bound : ∀ t < 2 ^ m, ∀ k < 2 * s, t * (2 * s) + k < 2 ^ p := by
    intro t ht k hk
    rw [hN]
    have : (t + 1) * (2 * s) ≤ 2 ^ m * (2 * s) := Nat.mul_le_mul_right _ ht
    nlinarith
  have modlow : ∀ t k, k < 2 * s → (t * (2 * s) + k) % (2 * s) = k := by
    intro t k hk
    rw [Nat.mul_comm t, Nat.mul_add_mod, Nat.mod_eq_of_lt hk]
  have hδ : 0 ≤ |P - Real.pi| := abs_nonneg _
  refine ⟨fun j k => if k < s then (if j % 2 = 0 then w (j / 2) k else twiddle P s k * w (j / 2) k)
    else (if j % 2 = 0 then w (j / 2) (k - s) else -(twiddle P s (k - s) * w (j / 2) (k - s))), ?_, ?_⟩
  · intro j hj k hk
    have hj2 : j / 2 < s := by omega
    have hd := Nat.div_add_mod j 2
    have cast : ((q + 1 : ℕ) : ℝ) * |P - Real.pi| = q * |P - Real.pi| + |P - Real.pi| := by push_cast; ring
    rw [cast]
    have lowEven : ∀ k < s, j % 2 = 0 → ‖w (j / 2) k - eps (2 * s) (j * k)‖ ≤ q * |P - Real.pi| + |P - Real.pi| := by
      intro k hk hj0
      have : eps (2 * s) (j * k) = eps s (j / 2 * k) := by
        rw [← eps_two s (j / 2 * k)]; congr 1
        conv_lhs => rw [show j = 2 * (j / 2) by omega]
        ring
      rw [this]
      have := hw (j / 2) hj2 k hk
      linarith
    have lowOdd : ∀ k < s, j % 2 = 1 →
        ‖twiddle P s k * w (j / 2) k - eps (2 * s) (j * k)‖ ≤ q * |P - Real.pi| + |P - Real.pi| := by
      intro k hk hj1
      have : eps (2 * s) (j * k) = eps (2 * s) k * eps s (j / 2 * k) := by
        rw [← eps_two s (j / 2 * k), ← eps_add]; congr 1
        conv_lhs => rw [show j = 2 * (j / 2) + 1 by omega]
        ring
      rw [this]
      exact mul_near (twiddle_norm P s k) (eps_norm _ _) (twiddle_near hk P) (hw (j / 2) hj2 k hk)
    dsimp only
    by_cases hks : k < s
    · rw [if_pos hks]
      by_cases hj0 : j % 2 = 0
      · rw [if_pos hj0]; exact lowEven k hks hj0
      · rw [if_neg hj0]; exact lowOdd k hks (by omega)
    · rw [if_neg hks]
      obtain ⟨k', rfl⟩ : ∃ k', k = k' + s := ⟨k - s, by omega⟩
      rw [Nat.add_sub_cancel]
      by_cases hj0 : j % 2 = 0
      · rw [if_pos hj0]
        have : eps (2 * s) (j * (k' + s)) = eps (2 * s) (j * k') := by
          have e : j * (k' + s) = j * k' + 2 * s * (j / 2) := by
            rw [Nat.mul_add]; congr 1
            conv_lhs => rw [show j = 2 * (j / 2) by omega]
            ring
          rw [e, eps_add, eps_self (by omega), mul_one]
        rw [this]
        exact lowEven k' (by omega) hj0
      · rw [if_neg hj0]
        have : eps (2 * s) (j * (k' + s)) = -eps (2 * s) (j * k') := by
          have e : j * (k' + s) = j * k' + (2 * (j / 2) + 1) * s := by
            rw [Nat.mul_add]; congr 1
            rw [show 2 * (j / 2) + 1 = j by omega]
          rw [e, eps_add, eps_half_odd hs]; ring
        rw [this, show ∀ u v : ℂ, -u - -v = -(u - v) from fun u v => by ring, norm_neg]
        exact lowOdd k' (by omega) (by omega)
  · intro t ht k hk
    rw [hc _ (bound t ht k hk), modlow t k hk, sum_even_odd]
    have o1 : ∀ j, (2 * j) % 2 = 0 := fun j => by omega
    have o2 : ∀ j, ¬ (2 * j + 1) % 2 = 0 := fun j => by omega
    have o3 : ∀ j, (2 * j) / 2 = j := fun j => by omega
    have o4 : ∀ j, (2 * j + 1) / 2 = j := fun j => by omega
    simp only [o1, o2, o3, o4, if_true, if_false]
    by_cases hks : k < s
    · simp only [if_pos hks]
      rw [v0 t ht k hks, v1 t ht k hks, Finset.mul_sum]
      congr 1
      apply Finset.sum_congr rfl
      intro j _
      ring
    · obtain ⟨k', rfl⟩ : ∃ k', k = k' + s := ⟨k - s, by omega⟩
      have hk' : k' < s := by omega
      simp only [if_neg hks, Nat.add_sub_cancel]
      rw [show t * (2 * s) + (k' + s) - s = t * (2 * s) + k' by omega,
        modlow t k' (by omega), show t * (2 * s) + (k' + s) = t * (2 * s) + k' + s by ring,
        v0 t ht k' hk', v1 t ht k' hk', sub_eq_add_neg, Finset.mul_sum, ← Finset.sum_neg_distrib]
      congr 1
      apply Finset.sum_congr rfl
      intro j _
      ring

theorem fftPasses_err {P : ℝ} {p : ℕ} {a : CArr} (m : ℕ) :
    ∀ (q : ℕ) (A : CArr) (res : Option CArr), q + m = p → FftErr |P - Real.pi| p q a A →
      FftPasses P (2 ^ p) (2 ^ m - 1) (2 ^ q) A res → ∃ c, res = some c ∧ FftErr |P - Real.pi| p p a c := by
  induction m with
  | zero =>
    intro q A res hq hA h
    obtain rfl : q = p := by omega
    cases h with
    | done => exact ⟨A, rfl, hA⟩
    | fault _ _ _ _ hb => simp at hb
    | step _ _ _ _ _ _ hb => simp at hb
  | succ m ih =>
    intro q A res hq hA h
    have hdvd : 2 * 2 ^ q ∣ 2 ^ p := by
      refine ⟨2 ^ m, ?_⟩
      rw [← hq, pow_add, pow_succ]; ring
    have h0 : 2 ^ (m + 1) - 1 ≠ 0 := by
      have : 2 ≤ 2 ^ (m + 1) := by rw [pow_succ]; have := Nat.one_le_two_pow (n := m); omega
      omega
    generalize hb0 : 2 ^ (m + 1) - 1 = b at h
    cases h with
    | done => exact absurd hb0 h0
    | fault _ _ _ order hb ho hf =>
      obtain ⟨c, hc, -⟩ := fftPass_spec P (N := 2 ^ p) (s := 2 ^ q) (by positivity) hdvd ho A
      rw [hc] at hf; cases hf
    | step _ _ _ order a' _ hb ho hf ht =>
      obtain ⟨c, hc, hv⟩ := fftPass_spec P (N := 2 ^ p) (s := 2 ^ q) (by positivity) hdvd ho A
      rw [hc] at hf; cases hf
      have e1 : b / 2 = 2 ^ m - 1 := by rw [← hb0, pow_succ]; omega
      rw [e1, show 2 * 2 ^ q = 2 ^ (q + 1) by rw [pow_succ]; ring] at ht
      exact ih (q + 1) _ _ (by omega) (hA.next (by omega) hv) ht

/-- **C41** For every power of two and whatever constant `P` is used for π, the algorithm terminates normally and its
results differ from the Fourier sums by at most `p |P - π|` times the sum of the absolute values of the data. -/
theorem C41_fft_constant_error (P : ℝ) (p : ℕ) (a : CArr) :
    (∃ res, Fft P (2 ^ p) a res) ∧
    ∀ res, Fft P (2 ^ p) a res → ∃ X, res = some X ∧ ∀ k < 2 ^ p,
      ‖X k - dft (2 ^ p) a k‖ ≤ p * |P - Real.pi| * ∑ j ∈ Finset.range (2 ^ p), ‖a j‖ := by
  have inv0 : ∀ c : CArr, (∀ i < 2 ^ p, c i = a (brev p i)) → FftErr |P - Real.pi| p 0 a c := by
    intro c hc
    refine ⟨fun _ _ => 1, ?_, ?_⟩
    · intro j hj k hk
      have hk0 : k = 0 := by simpa using hk
      subst hk0
      simp [eps_zero]
    · intro t ht k hk
      have hk0 : k = 0 := by simpa using hk
      subst hk0
      simp only [Nat.sub_zero] at ht
      rw [show t * 2 ^ 0 + 0 = t by ring, hc t ht]
      simp
  constructor
  · obtain ⟨c, hc, -⟩ := swap_all p a (List.Perm.refl _)
    obtain ⟨res, hr⟩ := fftPasses_exists P (p := p) p 0 c (by omega)
    exact ⟨res, _, List.Perm.refl _, Or.inr ⟨c, hc, hr⟩⟩
  · rintro res ⟨order, ho, h⟩
    obtain ⟨c, hc, hv⟩ := swap_all p a ho
    rcases h with ⟨h, -⟩ | ⟨c', hc', h⟩
    · rw [hc] at h; cases h
    · rw [hc] at hc'; cases hc'
      obtain ⟨X, rfl, w, hw, hX⟩ := fftPasses_err p 0 c res (by omega) (inv0 c hv) h
      refine ⟨X, rfl, ?_⟩
      intro k hk
      have := hX 0 (by simp) k hk
      rw [show 0 * 2 ^ p + k = k by ring] at this
      rw [this, dft_eq, ← Finset.sum_sub_distrib, Finset.mul_sum]
      refine le_trans (norm_sum_le _ _) ?_
      apply Finset.sum_le_sum
      intro j hj
      have e : a (j * 2 ^ (p - p) + brev (p - p) 0) = a j := by simp [brev]
      rw [e, ← mul_sub, norm_mul, mul_comm]
      exact mul_le_mul_of_nonneg_right (hw j (Finset.mem_range.1 hj) k hk) (norm_nonneg _)

/-- **C41** With the constant of the code the error is below `p · 4·10⁻¹⁷ · Σ|a_j|`. -/
theorem C41_fft_code_constant (p : ℕ) (a : CArr) {res : Option CArr} (h : Fft PI (2 ^ p) a res) :
    ∃ X, res = some X ∧ ∀ k < 2 ^ p,
      ‖X k - dft (2 ^ p) a k‖ ≤ p * (4 / 10 ^ 17) * ∑ j ∈ Finset.range (2 ^ p), ‖a j‖ := by
  obtain ⟨X, rfl, hX⟩ := (C41_fft_constant_error PI p a).2 res h
  refine ⟨X, rfl, fun k hk => le_trans (hX k hk) ?_⟩
  have : |PI - Real.pi| ≤ 4 / 10 ^ 17 := by
    have h1 := Real.pi_gt_d20
    have h2 := Real.pi_lt_d20
    unfold PI
    rw [abs_le]
    constructor
    · norm_num at h1 h2 ⊢; linarith
    · norm_num at h1 h2 ⊢; linarith
  gcongr

/-- such an execution exists for every array of eight values -/
example (a : CArr) : ∃ res, Fft PI 8 a res := by
  simpa using (C41_fft_constant_error PI 3 a).1

end Verif
