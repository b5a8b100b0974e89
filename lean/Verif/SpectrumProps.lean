import Verif.Spectrum
import Verif.FftProps
import Verif.MovieProps
import Mathlib.Analysis.SpecialFunctions.Trigonometric.Basic

/-!
# What the spectrum notebook shows
-/

namespace Verif

namespace Spectrum

/-- `exp(-2πi j / N)` for integer `j` -/
noncomputable def E (N : ℕ) (j : ℤ) : ℂ := Complex.exp (-(2 * Real.pi * Complex.I * (j : ℂ) / N))

theorem E_add (N : ℕ) (i j : ℤ) : E N (i + j) = E N i * E N j := by
  unfold E
  rw [← Complex.exp_add]
  congr 1
  push_cast
  ring

theorem E_nat (N x : ℕ) : E N (x : ℤ) = eps N x := by
  unfold E eps
  push_cast
  rfl

theorem E_self {N : ℕ} (hN : 0 < N) (j : ℤ) : E N (N * j) = 1 := by
  unfold E
  rw [Complex.exp_eq_one_iff]
  refine ⟨-j, ?_⟩
  have : (N : ℂ) ≠ 0 := by exact_mod_cast hN.ne'
  push_cast
  field_simp

theorem E_sum {N : ℕ} (hN : 0 < N) (j : ℤ) :
    ∑ n ∈ Finset.range N, E N (n * j) = if (N : ℤ) ∣ j then (N : ℂ) else 0 := by
  have hN' : (0 : ℤ) < N := by exact_mod_cast hN
  obtain ⟨m, hm⟩ : ∃ m : ℕ, (m : ℤ) = j % N := ⟨(j % N).toNat, Int.toNat_of_nonneg (Int.emod_nonneg _ hN'.ne')⟩
  have h1 : ∀ n ∈ Finset.range N, E N (n * j) = eps N (n * m) := by
    intro n _
    have : (n : ℤ) * j = ((n * m : ℕ) : ℤ) + N * (n * (j / N)) := by
      have := Int.emod_add_mul_ediv j N
      push_cast
      rw [hm]
      linear_combination -(n : ℤ) * this
    rw [this, E_add, E_self hN, mul_one, E_nat]
  rw [Finset.sum_congr rfl h1]
  have h2 : (N : ℤ) ∣ j ↔ N ∣ m := by
    rw [← Int.natCast_dvd_natCast, hm]
    constructor
    · intro h
      rw [Int.emod_eq_zero_of_dvd h]
      exact dvd_zero _
    · intro h
      have := Int.emod_add_mul_ediv j N
      rw [← this]
      exact dvd_add h (dvd_mul_right _ _)
  simp only [h2]
  exact eps_sum hN m

/-- A wave as two exponentials -/
theorem wave {N : ℕ} (A φ : ℝ) (m n : ℕ) :
    ((A * Real.cos (2 * Real.pi * m * n / N + φ) : ℝ) : ℂ) =
      (A : ℂ) / 2 * Complex.exp (φ * Complex.I) * E N (n * -(m : ℤ)) + (A : ℂ) / 2 * Complex.exp (-(φ * Complex.I)) * E N (n * (m : ℤ)) := by
  rw [Complex.ofReal_mul, Complex.ofReal_cos, Complex.cos]
  unfold E
  have h1 : ((2 * Real.pi * m * n / N + φ : ℝ) : ℂ) * Complex.I =
      φ * Complex.I + -(2 * Real.pi * Complex.I * ((((n : ℤ) * -(m : ℤ)) : ℤ) : ℂ) / N) := by
    push_cast
    ring
  have h2 : -((2 * Real.pi * m * n / N + φ : ℝ) : ℂ) * Complex.I =
      -(φ * Complex.I) + -(2 * Real.pi * Complex.I * ((((n : ℤ) * (m : ℤ)) : ℤ) : ℂ) / N) := by
    push_cast
    ring
  rw [h1, h2, Complex.exp_add, Complex.exp_add]
  ring

theorem exp_sum (N : ℕ) (c : ℂ) (j k : ℤ) :
    ∑ n ∈ Finset.range N, c * E N (n * j) * E N (n * k) = c * ∑ n ∈ Finset.range N, E N (n * (j + k)) := by
  rw [Finset.mul_sum]
  refine Finset.sum_congr rfl fun n _ => ?_
  rw [mul_add, E_add]
  ring

/-- The sum of scipy for a superposition of waves -/
theorem fft_waves {N K : ℕ} (hK : 2 * K < N) (a : ℝ) (A φ : ℕ → ℝ) {k : ℕ} (hk : k < N / 2) :
    scipyFft ((List.range N).map fun n : ℕ => a + ∑ m ∈ Finset.Icc 1 K, A m * Real.cos (2 * Real.pi * m * n / N + φ m)) k =
      N * ((if k = 0 then (a : ℂ) else 0) +
        if k ∈ Finset.Icc 1 K then (A k : ℂ) / 2 * Complex.exp (φ k * Complex.I) else 0) := by
  have hN : 0 < N := by omega
  have hterm : ∀ n ∈ Finset.range N,
      (((((List.range N).map fun n : ℕ => a + ∑ m ∈ Finset.Icc 1 K, A m * Real.cos (2 * Real.pi * m * n / N + φ m)).getD n 0 : ℝ) : ℂ) *
        Complex.exp (-(2 * Real.pi * Complex.I * ((n * k : ℕ) : ℂ) / N))) =
      (a : ℂ) * E N (n * 0) * E N (n * k) + ∑ m ∈ Finset.Icc 1 K,
        ((A m : ℂ) / 2 * Complex.exp (φ m * Complex.I) * E N (n * -(m : ℤ)) * E N (n * k) +
          (A m : ℂ) / 2 * Complex.exp (-(φ m * Complex.I)) * E N (n * (m : ℤ)) * E N (n * k)) := by
    intro n hn
    have hn' : n < N := Finset.mem_range.1 hn
    have e1 : Complex.exp (-(2 * Real.pi * Complex.I * ((n * k : ℕ) : ℂ) / N)) = E N (n * k) := by
      unfold E
      push_cast
      rfl
    have e2 : E N ((n : ℤ) * 0) = 1 := by simp [E]
    rw [e1, e2, mul_one, List.getD_eq_getElem?_getD, List.getElem?_map, List.getElem?_range hn']
    simp only [Option.map_some, Option.getD_some]
    rw [Complex.ofReal_add, Complex.ofReal_sum, add_mul, Finset.sum_mul]
    congr 1
    refine Finset.sum_congr rfl fun m _ => ?_
    rw [wave, add_mul]
  unfold scipyFft
  rw [List.length_map, List.length_range, Finset.sum_congr rfl hterm, Finset.sum_add_distrib, exp_sum, Finset.sum_comm]
  have hm : ∀ m ∈ Finset.Icc 1 K, ∑ n ∈ Finset.range N,
        ((A m : ℂ) / 2 * Complex.exp (φ m * Complex.I) * E N (n * -(m : ℤ)) * E N (n * k) +
          (A m : ℂ) / 2 * Complex.exp (-(φ m * Complex.I)) * E N (n * (m : ℤ)) * E N (n * k)) =
      if m = k then N * ((A k : ℂ) / 2 * Complex.exp (φ k * Complex.I)) else 0 := by
    intro m hm
    rw [Finset.mem_Icc] at hm
    rw [Finset.sum_add_distrib, exp_sum, exp_sum, E_sum hN, E_sum hN]
    have h1 : ¬(N : ℤ) ∣ (m : ℤ) + k := by
      intro h
      have h2 := Int.le_of_dvd (by omega) h
      omega
    rw [if_neg h1, mul_zero, add_zero]
    by_cases h : m = k
    · subst h
      rw [if_pos (by simp), if_pos rfl]
      ring
    · rw [if_neg, if_neg h, mul_zero]
      intro hd
      have h3 : |(-(m : ℤ) + k)| < N := by
        rw [abs_lt]
        constructor <;> omega
      have h4 := Int.eq_zero_of_abs_lt_dvd hd h3
      omega
  rw [Finset.sum_congr rfl hm, Finset.sum_ite_eq' , E_sum hN, zero_add, mul_add]
  congr 1
  · by_cases h : k = 0
    · subst h
      simp [mul_comm]
    · rw [if_neg h, if_neg, mul_zero, mul_zero]
      intro hd
      have := Int.le_of_dvd (by omega) hd
      omega
  · split_ifs <;> simp

theorem curve_amps (cfg : PyParams) (component : String) (schedule : ℤ) (data : List ℝ) (h0 : data ≠ []) :
    ∃ c, spectrumCurve cfg component schedule data = some c ∧ c.length = data.length / 2 ∧ ∀ k < data.length / 2, c[k]? = some
      ((k : ℝ) * (1 / (2 * (cfg.step_interval * schedule)) / ((data.length / 2 : ℕ) - 1 : ℝ)),
        if component = "H_phi" then 2 / (data.length : ℝ) * ‖scipyFft data k‖ * 100 else 2 / (data.length : ℝ) * ‖scipyFft data k‖) := by
  have hl : data.length ≠ 0 := by simpa using h0
  have hlin : ∃ x, linspace 0 (1 / (2 * (1 / (1 / (cfg.step_interval * schedule))))) ((data.length / 2 : ℕ) : ℤ) = some x ∧
      x.length = data.length / 2 ∧ ∀ k < data.length / 2,
        x[k]? = some ((k : ℝ) * (1 / (2 * (cfg.step_interval * schedule)) / ((data.length / 2 : ℕ) - 1 : ℝ))) := by
    unfold linspace
    rw [if_neg (by omega)]
    split_ifs with h1
    · have h2 : data.length / 2 = 1 := by exact_mod_cast h1
      refine ⟨_, rfl, by simp [h2], fun k hk => ?_⟩
      have : k = 0 := by omega
      subst this
      simp
    · refine ⟨_, rfl, by rw [List.length_map, List.length_range, Int.toNat_natCast], fun k hk => ?_⟩
      rw [Int.toNat_natCast, List.getElem?_map, List.getElem?_range hk]
      simp only [Option.map_some, one_div_one_div, sub_zero, zero_add, Int.cast_natCast]
  obtain ⟨x, hx, hlx, hxk⟩ := hlin
  unfold spectrumCurve
  simp only [hx, if_neg hl]
  refine ⟨_, rfl, by simp [hlx], fun k hk => ?_⟩
  rw [List.getElem?_zip_eq_some]
  refine ⟨hxk k hk, ?_⟩
  rw [List.getElem?_map, List.getElem?_range hk]
  rfl

end Spectrum

open Spectrum

/-- **C109 (partial)** The amplitudes: if a signal is the sum of a constant and of waves with `1, …, K` periods in the asked
range, `2 K < N`, the curve of a component other than `H_phi` shows the amplitude of every wave in the place of its number
and zero in every other place.  The constant is shown with twice its size, see `C109_mean_violated`; the field `H_phi`
is not right, see `C109_H_violated`. -/
theorem C109_amplitude_partial (cfg : PyParams) (component : String) (hc : component ≠ "H_phi") (schedule : ℤ) (N K : ℕ)
    (hN : 0 < N) (hK : 2 * K < N) (a : ℝ) (A φ : ℕ → ℝ) (data : List ℝ)
    (hd : data = (List.range N).map fun n : ℕ => a + ∑ m ∈ Finset.Icc 1 K, A m * Real.cos (2 * Real.pi * m * n / N + φ m)) :
    ∃ curve, spectrumCurve cfg component schedule data = some curve ∧ curve.length = N / 2 ∧
      (∀ k, 1 ≤ k → k ≤ K → k < N / 2 → (curve[k]?).map Prod.snd = some |A k|) ∧
      (∀ k, K < k → k < N / 2 → (curve[k]?).map Prod.snd = some 0) ∧
      (2 ≤ N → (curve[0]?).map Prod.snd = some (2 * |a|)) := by
  have hl : data.length = N := by simp [hd]
  have h0 : data ≠ [] := by
    intro h
    rw [h] at hl
    simp at hl
    omega
  obtain ⟨c, h1, h2, h3⟩ := curve_amps cfg component schedule data h0
  rw [hl] at h2 h3
  have hN' : (N : ℝ) ≠ 0 := by exact_mod_cast hN.ne'
  have hf : ∀ k, k < N / 2 → ‖scipyFft data k‖ = N * ‖((if k = 0 then (a : ℂ) else 0) +
        if k ∈ Finset.Icc 1 K then (A k : ℂ) / 2 * Complex.exp (φ k * Complex.I) else 0)‖ := by
    intro k hk
    rw [hd, fft_waves hK a A φ hk, norm_mul, Complex.norm_natCast]
  refine ⟨c, h1, h2, fun k hk1 hk2 hk3 => ?_, fun k hk1 hk2 => ?_, fun hN2 => ?_⟩
  · rw [h3 k hk3, Option.map_some, if_neg hc, hf k hk3, if_neg (by omega), if_pos (Finset.mem_Icc.2 ⟨hk1, hk2⟩), zero_add,
      norm_mul, Complex.norm_exp_ofReal_mul_I, norm_div, Complex.norm_real, Real.norm_eq_abs]
    congr 1
    simp
    field_simp
  · rw [h3 k hk2, Option.map_some, if_neg hc, hf k hk2, if_neg (by omega), if_neg (by rw [Finset.mem_Icc]; omega)]
    simp
  · rw [h3 0 (by omega), Option.map_some, if_neg hc, hf 0 (by omega), if_pos rfl, if_neg (by simp), add_zero,
      Complex.norm_real, Real.norm_eq_abs]
    congr 1
    field_simp

/-- **C109 violated** The field `H_phi` is shown with a hundred times its amplitude. -/
theorem C109_H_violated (cfg : PyParams) (schedule : ℤ) (data : List ℝ) (h0 : data ≠ []) (component : String)
    (hc : component ≠ "H_phi") :
    ∃ c h, spectrumCurve cfg component schedule data = some c ∧ spectrumCurve cfg "H_phi" schedule data = some h ∧
      h.length = c.length ∧ ∀ k < c.length, ∃ x y, c[k]? = some (x, y) ∧ h[k]? = some (x, 100 * y) := by
  obtain ⟨c, h1, h2, h3⟩ := curve_amps cfg component schedule data h0
  obtain ⟨h, g1, g2, g3⟩ := curve_amps cfg "H_phi" schedule data h0
  refine ⟨c, h, h1, g1, by rw [h2, g2], fun k hk => ?_⟩
  rw [h2] at hk
  refine ⟨_, _, h3 k hk, ?_⟩
  rw [g3 k hk, if_pos rfl, if_neg hc, mul_comm (100 : ℝ)]

/-- **C109 (partial)** The frequencies: the wave with `k` periods in `N` samples has the frequency `k / (N dt schedule)`.  The
curve shows it at a frequency that is too high by at most the part `3 / (N - 3)`.  It is never the right one:
`C109_frequency_violated`. -/
theorem C109_frequency_partial (cfg : PyParams) (component : String) (schedule : ℤ) (data : List ℝ) (hN : 4 ≤ data.length)
    (hdt : 0 < cfg.step_interval) (hs : 0 < schedule) (k : ℕ) (hk : k < data.length / 2) :
    ∃ curve f amp, spectrumCurve cfg component schedule data = some curve ∧ curve[k]? = some (f, amp) ∧
      k / (data.length * (cfg.step_interval * schedule)) ≤ f ∧
      f ≤ k / (data.length * (cfg.step_interval * schedule)) * (1 + 3 / ((data.length : ℝ) - 3)) := by
  have h0 : data ≠ [] := by
    rintro rfl
    simp at hN
  obtain ⟨c, h1, _, h3⟩ := curve_amps cfg component schedule data h0
  refine ⟨c, _, _, h1, h3 k hk, ?_⟩
  obtain ⟨T, hT⟩ : ∃ T : ℝ, T = cfg.step_interval * schedule := ⟨_, rfl⟩
  have hT0 : 0 < T := by
    rw [hT]
    have : (0 : ℝ) < schedule := by exact_mod_cast hs
    positivity
  rw [← hT]
  obtain ⟨N, hNd⟩ : ∃ N, N = data.length := ⟨_, rfl⟩
  rw [← hNd] at hN hk ⊢
  have hN' : (4 : ℝ) ≤ N := by exact_mod_cast hN
  have hlo : (N : ℝ) ≤ 2 * ((N / 2 : ℕ) : ℝ) + 1 := by
    have : N ≤ 2 * (N / 2) + 1 := by omega
    exact_mod_cast this
  have hhi : 2 * ((N / 2 : ℕ) : ℝ) ≤ N := by
    have : 2 * (N / 2) ≤ N := by omega
    exact_mod_cast this
  have hk0 : (0 : ℝ) ≤ k := Nat.cast_nonneg k
  obtain ⟨H, hH⟩ : ∃ H : ℝ, H = ((N / 2 : ℕ) : ℝ) := ⟨_, rfl⟩
  rw [← hH] at hlo hhi ⊢
  have hH1 : 0 < H - 1 := by linarith
  have e : (k : ℝ) * (1 / (2 * T) / (H - 1)) = k / T * (1 / (2 * (H - 1))) := by
    field_simp
  have e2 : (k : ℝ) / (N * T) = k / T * (1 / N) := by
    field_simp
  have e3 : (k : ℝ) / (N * T) * (1 + 3 / ((N : ℝ) - 3)) = k / T * (1 / (N - 3)) := by
    have h3' : (N : ℝ) - 3 ≠ 0 := by linarith
    field_simp
    ring
  rw [e3, e2, e]
  have hkT : 0 ≤ (k : ℝ) / T := by positivity
  exact ⟨mul_le_mul_of_nonneg_left (one_div_le_one_div_of_le (by linarith) (by linarith)) hkT,
    mul_le_mul_of_nonneg_left (one_div_le_one_div_of_le (by linarith) (by linarith)) hkT⟩

/-- **C109 violated** No wave is shown at its frequency: the axis ends at half the sampling rate, but the last place of the
curve has a lower frequency. -/
theorem C109_frequency_violated (cfg : PyParams) (component : String) (schedule : ℤ) (data : List ℝ) (hN : 4 ≤ data.length)
    (hdt : 0 < cfg.step_interval) (hs : 0 < schedule) (k : ℕ) (hk0 : 1 ≤ k) (hk : k < data.length / 2) :
    ∃ curve f amp, spectrumCurve cfg component schedule data = some curve ∧ curve[k]? = some (f, amp) ∧
      k / (data.length * (cfg.step_interval * schedule)) < f := by
  have h0 : data ≠ [] := by
    rintro rfl
    simp at hN
  obtain ⟨c, h1, _, h3⟩ := curve_amps cfg component schedule data h0
  refine ⟨c, _, _, h1, h3 k hk, ?_⟩
  obtain ⟨T, hT⟩ : ∃ T : ℝ, T = cfg.step_interval * schedule := ⟨_, rfl⟩
  have hT0 : 0 < T := by
    rw [hT]
    have : (0 : ℝ) < schedule := by exact_mod_cast hs
    positivity
  rw [← hT]
  obtain ⟨N, hNd⟩ : ∃ N, N = data.length := ⟨_, rfl⟩
  rw [← hNd] at hN hk ⊢
  have hhi : 2 * ((N / 2 : ℕ) : ℝ) ≤ N := by
    have : 2 * (N / 2) ≤ N := by omega
    exact_mod_cast this
  have hlo : (2 : ℝ) ≤ ((N / 2 : ℕ) : ℝ) := by
    have : 2 ≤ N / 2 := by omega
    exact_mod_cast this
  have hkR : (0 : ℝ) < k := by exact_mod_cast hk0
  obtain ⟨H, hH⟩ : ∃ H : ℝ, H = ((N / 2 : ℕ) : ℝ) := ⟨_, rfl⟩
  rw [← hH] at hlo hhi ⊢
  have e : (k : ℝ) * (1 / (2 * T) / (H - 1)) = k / T * (1 / (2 * (H - 1))) := by
    have : H - 1 ≠ 0 := by linarith
    field_simp
  have hN0 : (0 : ℝ) < N := by linarith
  have e2 : (k : ℝ) / (N * T) = k / T * (1 / N) := by
    field_simp
  rw [e2, e]
  exact mul_lt_mul_of_pos_left (one_div_lt_one_div_of_lt (by linarith) (by linarith)) (by positivity)

/-- **C109 violated** The mean of a signal is shown with twice its size. -/
theorem C109_mean_violated (cfg : PyParams) (component : String) (hc : component ≠ "H_phi") (schedule : ℤ) (N : ℕ) (hN : 2 ≤ N)
    (a : ℝ) (ha : a ≠ 0) :
    ∃ curve f amp, spectrumCurve cfg component schedule (List.replicate N a) = some curve ∧ curve[0]? = some (f, amp) ∧ amp = 2 * |a| ∧
      amp ≠ |a| := by
  obtain ⟨c, h1, _, _, _, h5⟩ := C109_amplitude_partial cfg component hc schedule N 0 (by omega) (by omega) a (fun _ => 0) (fun _ => 0)
    (List.replicate N a) (by simp)
  obtain ⟨⟨f, amp⟩, h6, h7⟩ := Option.map_eq_some_iff.1 (h5 hN)
  refine ⟨c, f, amp, h1, h6, h7, ?_⟩
  have h8 : amp = 2 * |a| := h7
  have := abs_pos.2 ha
  rw [h8]
  intro h
  linarith

/-- Not vacuous: two waves in sixteen samples, and the shown values -/
example (cfg : PyParams) (hdt : cfg.step_interval = 1) : ∃ curve f amp,
    spectrumCurve cfg "E_z" 1 ((List.range 16).map fun n : ℕ => 5 + ∑ m ∈ Finset.Icc (1 : ℕ) 2, (m : ℝ) * Real.cos (2 * Real.pi * m * n / (16 : ℕ) + 1)) =
      some curve ∧ curve[2]? = some (f, amp) ∧ amp = 2 ∧ 2 / 16 < f ∧ f ≤ 2 / 16 * (1 + 3 / 13) := by
  obtain ⟨c, h1, h2, h3, _⟩ := C109_amplitude_partial cfg "E_z" (by decide) 1 16 2 (by norm_num) (by norm_num) 5 (fun m => m) (fun _ => 1) _ rfl
  obtain ⟨⟨f, amp⟩, h6, h7⟩ := Option.map_eq_some_iff.1 (h3 2 (by norm_num) (by norm_num) (by norm_num))
  obtain ⟨c', f', amp', g1, g2, _, g3⟩ := C109_frequency_partial cfg "E_z" 1 ((List.range 16).map fun n : ℕ => 5 + ∑ m ∈ Finset.Icc (1 : ℕ) 2, (m : ℝ) * Real.cos (2 * Real.pi * m * n / (16 : ℕ) + 1)) (by simp)
    (by rw [hdt]; norm_num) (by norm_num) 2 (by simp)
  obtain ⟨c'', f'', amp'', k1, k2, k3⟩ := C109_frequency_violated cfg "E_z" 1 ((List.range 16).map fun n : ℕ => 5 + ∑ m ∈ Finset.Icc (1 : ℕ) 2, (m : ℝ) * Real.cos (2 * Real.pi * m * n / (16 : ℕ) + 1)) (by simp)
    (by rw [hdt]; norm_num) (by norm_num) 2 (by norm_num) (by simp)
  rw [h1] at g1 k1
  cases g1
  cases k1
  rw [h6] at g2 k2
  cases g2
  cases k2
  refine ⟨c, f, amp, h1, h6, ?_, ?_, ?_⟩
  · have : amp = |((2 : ℕ) : ℝ)| := h7
    rw [this]
    norm_num
  · rw [hdt] at k3
    norm_num at k3 ⊢
    exact k3
  · rw [hdt] at g3
    norm_num at g3 ⊢
    exact g3

/-- The point of a row and a column is among those the probe saves -/
def HasPoint (p : PyProbe) (row col : ℤ) : Prop :=
  (p.type = "dot".toList ∧ p.r_start = row ∧ p.z_start = col) ∨ (p.type = "col".toList ∧ p.z_start = col) ∨
    (p.type = "row".toList ∧ p.r_start = row) ∨
    (p.type = "frame".toList ∧ p.r_start ≤ row ∧ row ≤ p.r_end ∧ p.z_start ≤ col ∧ col ≤ p.z_end)

namespace Spectrum

/-- The range is not set or that of the asked times -/
def Good (cfg : PyParams) (t : ℝ × ℝ) (s : ℤ) (r : FrameRange) : Prop :=
  (r.start = 0 ∨ r.start = frameByTime cfg t.1 s) ∧ (r.stop = 0 ∨ r.stop = frameByTime cfg t.2 s)

/-- A right request -/
def Right (cfg : PyParams) (t : ℝ × ℝ) (row col s : ℤ) (ds : String) (q : Option SpectrumRequest) : Prop :=
  ∀ r, q = some r → (r.component = ds ∧ r.start = frameByTime cfg t.1 s ∧ r.stop = frameByTime cfg t.2 s ∧ r.schedule = s) ∧
    ∃ p ∈ cfg.probes, p.component = ds.toList ∧ p.type = r.kind.toList ∧ HasPoint p row col

theorem pyOr_good {a f : ℤ} (h : a = 0 ∨ a = f) : pyOr a f = f := by
  unfold pyOr
  split_ifs with h0
  · rfl
  · exact h.resolve_left h0

theorem take_good {cfg : PyParams} {t : ℝ × ℝ} {row col s : ℤ} {ds kind : String} {r : FrameRange} {p : PyProbe} (hr : Good cfg t s r)
    (hp : p.schedule = s) (hm : p ∈ cfg.probes) (hc : p.component = ds.toList) (hk : p.type = kind.toList) (hh : HasPoint p row col) :
    Good cfg t s (takeProbe cfg t ds kind r p).1 ∧ Right cfg t row col s ds (takeProbe cfg t ds kind r p).2 ∧
      ∃ q, (takeProbe cfg t ds kind r p).2 = some q ∧ q.kind = kind := by
  subst hp
  have h1 := pyOr_good hr.1
  have h2 := pyOr_good hr.2
  refine ⟨⟨Or.inr h1, Or.inr h2⟩, ?_, _, rfl, rfl⟩
  intro q hq
  rw [takeProbe, Option.some.injEq] at hq
  subst hq
  exact ⟨⟨rfl, h1, h2, rfl⟩, p, hm, hc, hk, hh⟩

theorem dotLoop_good {cfg : PyParams} {t : ℝ × ℝ} {s row col : ℤ} {ds : String} (ps : List PyProbe) :
    ∀ acc : FrameRange × Option SpectrumRequest, (∀ p ∈ ps, p.schedule = s ∧ p ∈ cfg.probes) → Good cfg t s acc.1 → Right cfg t row col s ds acc.2 →
      (∀ q, acc.2 = some q → q.kind = "dot") →
      Good cfg t s (dotLoop cfg t row col ds ps acc).1 ∧ Right cfg t row col s ds (dotLoop cfg t row col ds ps acc).2 ∧
      (∀ q, (dotLoop cfg t row col ds ps acc).2 = some q → q.kind = "dot") ∧
      ((acc.2 ≠ none ∨ ∃ p ∈ ps, p.type = "dot".toList ∧ p.r_start = row ∧ p.z_start = col ∧ p.component = ds.toList) →
        (dotLoop cfg t row col ds ps acc).2 ≠ none) := by
  induction ps with
  | nil =>
    intro acc _ h1 h2 h3
    refine ⟨h1, h2, h3, ?_⟩
    rintro (h | ⟨p, hp, _⟩)
    · exact h
    · simp at hp
  | cons p ps ih =>
    intro acc hs h1 h2 h3
    have hps : ∀ p ∈ ps, p.schedule = s ∧ p ∈ cfg.probes := fun q hq => hs q (List.mem_cons_of_mem _ hq)
    rw [dotLoop]
    split_ifs with h
    · obtain ⟨g1, g2, q, g3, g4⟩ := take_good (ds := ds) (kind := "dot") (row := row) (col := col) h1 (hs p List.mem_cons_self).1
        (hs p List.mem_cons_self).2 h.2.2.2 h.1 (Or.inl ⟨h.1, h.2.1, h.2.2.1⟩)
      obtain ⟨k1, k2, k3, k4⟩ := ih (takeProbe cfg t ds "dot" acc.1 p) hps g1 g2 (fun q' hq' => by
        rw [g3] at hq'
        cases hq'
        exact g4)
      exact ⟨k1, k2, k3, fun _ => k4 (Or.inl (by rw [g3]; simp))⟩
    · obtain ⟨k1, k2, k3, k4⟩ := ih acc hps h1 h2 h3
      refine ⟨k1, k2, k3, ?_⟩
      rintro (h' | ⟨q, hq, hq'⟩)
      · exact k4 (Or.inl h')
      · rcases List.mem_cons.1 hq with rfl | hq
        · exact absurd hq' h
        · exact k4 (Or.inr ⟨q, hq, hq'⟩)

theorem areaLoop_good {cfg : PyParams} {t : ℝ × ℝ} {s row col : ℤ} {ds : String} (ps : List PyProbe) :
    ∀ acc : FrameRange × Option SpectrumRequest, (∀ p ∈ ps, p.schedule = s ∧ p ∈ cfg.probes) → Good cfg t s acc.1 → Right cfg t row col s ds acc.2 →
      Good cfg t s (areaLoop cfg t row col ds ps acc).1 ∧ Right cfg t row col s ds (areaLoop cfg t row col ds ps acc).2 := by
  induction ps with
  | nil => exact fun acc _ h1 h2 => ⟨h1, h2⟩
  | cons p ps ih =>
    intro acc hs h1 h2
    have hps : ∀ p ∈ ps, p.schedule = s ∧ p ∈ cfg.probes := fun q hq => hs q (List.mem_cons_of_mem _ hq)
    have hp := hs p List.mem_cons_self
    rw [areaLoop]
    split_ifs with c1 c2 c3 c4 c5 c6
    · have := take_good (row := row) (col := col) h1 hp.1 hp.2 c2 c1.1 (Or.inr (Or.inl c1))
      exact ⟨this.1, this.2.1⟩
    · exact ⟨h1, h2⟩
    · have := take_good (row := row) (col := col) h1 hp.1 hp.2 c4 c3.1 (Or.inr (Or.inr (Or.inl c3)))
      exact ⟨this.1, this.2.1⟩
    · exact ⟨h1, h2⟩
    · have := take_good (row := row) (col := col) h1 hp.1 hp.2 c6 c5.1 (Or.inr (Or.inr (Or.inr ⟨c5.1, c5.2.1, c5.2.2.2.1, c5.2.2.1, c5.2.2.2.2⟩)))
      exact ih _ hps this.1 this.2.1
    · exact ih _ hps h1 h2
    · exact ih _ hps h1 h2

theorem gather_good {cfg : PyParams} {t : ℝ × ℝ} {s row col : ℤ} {autoselect : Bool} {r : FrameRange} {ds : String}
    (hs : ∀ p ∈ cfg.probes, p.schedule = s) (hr : Good cfg t s r) :
    Good cfg t s (gather cfg t row col autoselect r ds).1 ∧ Right cfg t row col s ds (gather cfg t row col autoselect r ds).2 ∧
      ((∃ p ∈ cfg.probes, p.type = "dot".toList ∧ p.r_start = row ∧ p.z_start = col ∧ p.component = ds.toList) →
        ∃ q, (gather cfg t row col autoselect r ds).2 = some q ∧ q.kind = "dot") := by
  obtain ⟨h1, h2, h3, h4⟩ := dotLoop_good (ds := ds) (row := row) (col := col) cfg.probes (r, none) (fun p hp => ⟨hs p hp, hp⟩) hr (by rintro _ ⟨⟩) (by rintro _ ⟨⟩)
  unfold gather
  simp only
  split_ifs with h
  · refine ⟨(areaLoop_good _ _ (fun p hp => ⟨hs p hp, hp⟩) h1 h2).1, (areaLoop_good _ _ (fun p hp => ⟨hs p hp, hp⟩) h1 h2).2, fun hp => absurd h.1 (h4 (Or.inr hp))⟩
  · refine ⟨h1, h2, fun hp => ?_⟩
    obtain ⟨q, hq⟩ := Option.ne_none_iff_exists'.1 (h4 (Or.inr hp))
    exact ⟨q, hq, h3 q hq⟩

theorem gatherAll_good {cfg : PyParams} {t : ℝ × ℝ} {s row col : ℤ} {autoselect : Bool} (hs : ∀ p ∈ cfg.probes, p.schedule = s)
    (sets : List String) : ∀ r : FrameRange, Good cfg t s r → ∀ (i : ℕ) (ds : String), sets[i]? = some ds →
      ∃ q, (gatherAll cfg t row col autoselect r sets)[i]? = some q ∧ Right cfg t row col s ds q ∧
        ((∃ p ∈ cfg.probes, p.type = "dot".toList ∧ p.r_start = row ∧ p.z_start = col ∧ p.component = ds.toList) →
          ∃ r, q = some r ∧ r.kind = "dot") := by
  induction sets with
  | nil => simp
  | cons d ds ih =>
    intro r hr i d' hi
    obtain ⟨h1, h2, h3⟩ := gather_good (row := row) (col := col) (autoselect := autoselect) (ds := d) hs hr
    cases i with
    | zero =>
      simp only [List.getElem?_cons_zero, Option.some.injEq] at hi
      subst hi
      exact ⟨_, rfl, h2, h3⟩
    | succ i =>
      rw [List.getElem?_cons_succ] at hi
      exact ih _ h1 i d' hi

end Spectrum

/-- **C109 (partial)** The range of times: if all probes have the same schedule, whatever is shown for a component is of this
component, of a probe that saves the point, and of the frames nearest to the asked times, and if there is a probe in the
point it is used.  With
different schedules it is not so: `C109_range_violated`; a probe of a column or a row may not be found:
`C109_hidden_violated`. -/
theorem C109_range_partial (cfg : PyParams) (t : ℝ × ℝ) (row col s : ℤ) (autoselect : Bool) (data_sets : List String)
    (hs : ∀ p ∈ cfg.probes, p.schedule = s) (i : ℕ) (ds : String) (hi : data_sets[i]? = some ds) :
    ∃ q, (spectrumRequests cfg t row col autoselect data_sets)[i]? = some q ∧
      (∀ r, q = some r → (r.component = ds ∧ r.start = frameByTime cfg t.1 s ∧ r.stop = frameByTime cfg t.2 s ∧ r.schedule = s) ∧
        ∃ p ∈ cfg.probes, p.component = ds.toList ∧ p.type = r.kind.toList ∧ HasPoint p row col) ∧
      ((∃ p ∈ cfg.probes, p.type = "dot".toList ∧ p.r_start = row ∧ p.z_start = col ∧ p.component = ds.toList) →
        ∃ r, q = some r ∧ r.kind = "dot") :=
  gatherAll_good hs data_sets ⟨0, 0⟩ ⟨Or.inl rfl, Or.inl rfl⟩ i ds hi

/-- A configuration with the given probes and a step of one second, for examples -/
noncomputable def probeCfg (probes : List PyProbe) : PyParams :=
  ⟨.bool false, 10, 10, 1, 1, probes, [], [], 1, 1, 1, 1, 1, 1, 1, [], 0, 1000, 1⟩

theorem probeCfg_frame (probes : List PyProbe) (n d : ℤ) (hd : d ≠ 0) : frameByTime (probeCfg probes) (n * d : ℤ) d = n := by
  have : ((n * d : ℤ) : ℝ) / (probeCfg probes).step_interval / d = ((n : ℤ) : ℝ) := by
    have : (d : ℝ) ≠ 0 := by exact_mod_cast hd
    simp only [probeCfg]
    push_cast
    field_simp
  rw [frameByTime, this, npRound_int]

theorem dotLoop_hit {cfg : PyParams} {t : ℝ × ℝ} {row col : ℤ} {ds : String} {p : PyProbe} {ps : List PyProbe}
    {acc : FrameRange × Option SpectrumRequest} (h : p.type = "dot".toList ∧ p.r_start = row ∧ p.z_start = col ∧ p.component = ds.toList) :
    dotLoop cfg t row col ds (p :: ps) acc = dotLoop cfg t row col ds ps (takeProbe cfg t ds "dot" acc.1 p) := by
  rw [dotLoop, if_pos h]

theorem dotLoop_miss {cfg : PyParams} {t : ℝ × ℝ} {row col : ℤ} {ds : String} {p : PyProbe} {ps : List PyProbe}
    {acc : FrameRange × Option SpectrumRequest} (h : ¬(p.type = "dot".toList ∧ p.r_start = row ∧ p.z_start = col ∧ p.component = ds.toList)) :
    dotLoop cfg t row col ds (p :: ps) acc = dotLoop cfg t row col ds ps acc := by
  rw [dotLoop, if_neg h]

/-- Two probes in a point, of `E_r` and of `E_z` -/
noncomputable def twoDots (s₁ s₂ : ℤ) : PyParams :=
  probeCfg [⟨"dot".toList, "E_r".toList, s₁, 3, 4, 0, 0, []⟩, ⟨"dot".toList, "E_z".toList, s₂, 3, 4, 0, 0, []⟩]

theorem twoDots_frame (s₁ s₂ n d : ℤ) (hd : d ≠ 0) : frameByTime (twoDots s₁ s₂) (n * d : ℤ) d = n := probeCfg_frame _ n d hd

theorem twoDots_requests (s₁ s₂ : ℤ) (t : ℝ × ℝ) : spectrumRequests (twoDots s₁ s₂) t 3 4 true ["E_r", "E_z"] =
    [some ⟨"dot", "E_r", frameByTime (twoDots s₁ s₂) t.1 s₁, frameByTime (twoDots s₁ s₂) t.2 s₁, s₁⟩,
      some ⟨"dot", "E_z", pyOr (frameByTime (twoDots s₁ s₂) t.1 s₁) (frameByTime (twoDots s₁ s₂) t.1 s₂),
        pyOr (frameByTime (twoDots s₁ s₂) t.2 s₁) (frameByTime (twoDots s₁ s₂) t.2 s₂), s₂⟩] := by
  obtain ⟨c, hc⟩ : ∃ c, c = twoDots s₁ s₂ := ⟨_, rfl⟩
  have hp : c.probes = [⟨"dot".toList, "E_r".toList, s₁, 3, 4, 0, 0, []⟩, ⟨"dot".toList, "E_z".toList, s₂, 3, 4, 0, 0, []⟩] := by
    rw [hc]
    rfl
  rw [← hc]
  have h1 : ∀ r, gather c t 3 4 true r "E_r" = takeProbe c t "E_r" "dot" r ⟨"dot".toList, "E_r".toList, s₁, 3, 4, 0, 0, []⟩ := by
    intro r
    unfold gather
    simp only [hp]
    rw [dotLoop_hit (by simp), dotLoop_miss (by simp), dotLoop, if_neg (by simp [takeProbe])]
  have h2 : ∀ r, gather c t 3 4 true r "E_z" = takeProbe c t "E_z" "dot" r ⟨"dot".toList, "E_z".toList, s₂, 3, 4, 0, 0, []⟩ := by
    intro r
    unfold gather
    simp only [hp]
    rw [dotLoop_miss (by simp), dotLoop_hit (by simp), dotLoop, if_neg (by simp [takeProbe])]
  simp only [spectrumRequests, gatherAll, h1, h2, takeProbe, setRange]
  simp [pyOr]

/-- Not vacuous: two components with the same schedule -/
example : (∀ p ∈ (twoDots 10 10).probes, p.schedule = 10) ∧
    spectrumRequests (twoDots 10 10) ((20 : ℝ), (500 : ℝ)) 3 4 true ["E_r", "E_z"] =
      [some ⟨"dot", "E_r", 2, 50, 10⟩, some ⟨"dot", "E_z", 2, 50, 10⟩] := by
  refine ⟨by simp [twoDots, probeCfg], ?_⟩
  have h1 : frameByTime (twoDots 10 10) 20 10 = 2 := by simpa using twoDots_frame _ _ 2 10 (by norm_num)
  have h2 : frameByTime (twoDots 10 10) 500 10 = 50 := by simpa using twoDots_frame _ _ 50 10 (by norm_num)
  rw [twoDots_requests]
  simp only [h1, h2, pyOr]
  simp

/-- **C109 violated** If a component is saved after every step and the next after every ten steps, the second is shown for a
range of times ten times as late as the asked one: for times from 20 s to 500 s the frames 20 to 500 are taken, which
are those of 200 s to 5000 s. -/
theorem C109_range_violated : spectrumRequests (twoDots 1 10) ((20 : ℝ), (500 : ℝ)) 3 4 true ["E_r", "E_z"] =
      [some ⟨"dot", "E_r", 20, 500, 1⟩, some ⟨"dot", "E_z", 20, 500, 10⟩] ∧
    frameByTime (twoDots 1 10) 20 10 = 2 ∧ frameByTime (twoDots 1 10) 500 10 = 50 ∧
    timeByFrame (twoDots 1 10) 20 10 = 200 ∧ timeByFrame (twoDots 1 10) 500 10 = 5000 := by
  have h1 : frameByTime (twoDots 1 10) 20 1 = 20 := by simpa using twoDots_frame _ _ 20 1 (by norm_num)
  have h2 : frameByTime (twoDots 1 10) 500 1 = 500 := by simpa using twoDots_frame _ _ 500 1 (by norm_num)
  have h3 : frameByTime (twoDots 1 10) 20 10 = 2 := by simpa using twoDots_frame _ _ 2 10 (by norm_num)
  have h4 : frameByTime (twoDots 1 10) 500 10 = 50 := by simpa using twoDots_frame _ _ 50 10 (by norm_num)
  refine ⟨?_, h3, h4, ?_, ?_⟩
  · rw [twoDots_requests]
    simp only [h1, h2, pyOr]
    simp
  · simp only [timeByFrame, twoDots, probeCfg]
    norm_num
  · simp only [timeByFrame, twoDots, probeCfg]
    norm_num

/-- **C109 violated** A probe of a column is not found if a probe of another component of the same column is before it in the
list: then nothing is asked for. -/
theorem C109_hidden_violated (t : ℝ × ℝ) (row col s : ℤ) :
    ∃ cfg : PyParams, (∃ p ∈ cfg.probes, p.type = "col".toList ∧ p.z_start = col ∧ p.component = "E_z".toList ∧ p.schedule = s) ∧
      spectrumRequests cfg t row col true ["E_z"] = [none] := by
  refine ⟨probeCfg [⟨"col".toList, "E_r".toList, s, 0, col, 0, 0, []⟩, ⟨"col".toList, "E_z".toList, s, 0, col, 0, 0, []⟩],
    ⟨⟨"col".toList, "E_z".toList, s, 0, col, 0, 0, []⟩, by simp [probeCfg], rfl, rfl, rfl, rfl⟩, ?_⟩
  simp only [spectrumRequests, gatherAll, gather, probeCfg]
  rw [dotLoop_miss (by simp), dotLoop_miss (by simp), dotLoop, if_pos (by simp), areaLoop, if_pos (by simp), if_neg (by simp)]

end Verif
