import Verif.FftCore
import Mathlib.Algebra.Field.GeomSum

/-!
# C41: the transforms of class `Fourier`
-/

namespace Verif

open Complex in
/-- The discrete Fourier sum of `N` values -/
noncomputable def dft (N : ℕ) (x : ℕ → ℂ) (k : ℕ) : ℂ :=
  ∑ n ∈ Finset.range N, x n * exp (-(2 * Real.pi * I * (n * k : ℕ) / N))

theorem dft_eq (N : ℕ) (x : ℕ → ℂ) (k : ℕ) :
    dft N x k = ∑ n ∈ Finset.range N, x n * eps N (n * k) := rfl

/-! ## The FFT -/

/-- **C41** For every power of two and every array the in-place algorithm computes the discrete Fourier sum,
whatever the order in which the parallel iterations are executed; and it always terminates normally. -/
theorem C41_fft_is_dft (p : ℕ) (a : CArr) :
    (∃ res, Fft Real.pi (2 ^ p) a res) ∧
    ∀ res, Fft Real.pi (2 ^ p) a res → ∃ X, res = some X ∧ ∀ k < 2 ^ p, X k = dft (2 ^ p) a k := by
  have inv0 : ∀ c : CArr, (∀ i < 2 ^ p, c i = a (brev p i)) → FftInv p 0 a c := by
    intro c hc t ht k hk
    have hk0 : k = 0 := by simpa using hk
    subst hk0
    simp only [Nat.sub_zero] at ht
    rw [show t * 2 ^ 0 + 0 = t by ring, hc t ht]
    simp [eps_zero]
  constructor
  · obtain ⟨c, hc, -⟩ := swap_all p a (List.Perm.refl _)
    obtain ⟨res, hr⟩ := fftPasses_exists Real.pi (p := p) p 0 c (by omega)
    exact ⟨res, _, List.Perm.refl _, Or.inr ⟨c, hc, hr⟩⟩
  · rintro res ⟨order, ho, h⟩
    obtain ⟨c, hc, hv⟩ := swap_all p a ho
    rcases h with ⟨h, -⟩ | ⟨c', hc', h⟩
    · rw [hc] at h; cases h
    · rw [hc] at hc'; cases hc'
      obtain ⟨X, rfl, hX⟩ := fftPasses_spec p 0 c res (by omega) (inv0 c hv) h
      refine ⟨X, rfl, ?_⟩
      intro k hk
      have := hX 0 (by simp) k hk
      rw [show 0 * 2 ^ p + k = k by ring] at this
      rw [this, dft_eq]
      apply Finset.sum_congr rfl
      intro j _
      simp [brev]

theorem foldlM_none {α β : Type} (f : β → α → Option β) (x : α) (hx : ∀ b, f b x = none) :
    ∀ (L : List α) (b : β), x ∈ L → L.foldlM f b = none := by
  intro L
  induction L with
  | nil => intro b h; simp at h
  | cons y L ih =>
    intro b h
    rw [List.foldlM_cons]
    rcases List.mem_cons.1 h with rfl | h
    · rw [hx]; rfl
    · cases f b y with
      | none => rfl
      | some c => exact ih c h

theorem fftPasses_none {P : ℝ} {N : ℕ} (hp : ∀ p, N ≠ 2 ^ p) {b s : ℕ} {A : CArr} {res : Option CArr}
    (h : FftPasses P N b s A res) :
    ∀ q, b = (N - 1) / 2 ^ q → 0 < b → s = 2 ^ q → res = none := by
  induction h with
  | done s a => intro q _ h; omega
  | fault => intros; rfl
  | step b s a order a' res hb ho hf ht ih =>
    intro q hbq _ hs
    by_cases h2 : 0 < b / 2
    · refine ih (q + 1) ?_ h2 ?_
      · rw [hbq, Nat.div_div_eq_div_mul, pow_succ]
      · rw [hs, pow_succ]; ring
    · exfalso
      have hb1 : (N - 1) / 2 ^ q = 1 := by omega
      have hpos : 0 < 2 ^ q := by positivity
      have hdm := Nat.div_add_mod (N - 1) (2 ^ q)
      have hml := Nat.mod_lt (N - 1) hpos
      rw [hb1] at hdm
      have hne := hp (q + 1)
      rw [pow_succ] at hne
      have hnone : fftPass P N s order a = none := by
        unfold fftPass
        refine foldlM_none _ (s - 1) ?_ _ _ (ho.mem_iff.2 (List.mem_range.2 (by omega)))
        intro A'
        refine foldlM_none _ (s - 1) ?_ _ _ ((mem_mList (by omega) (by omega)).2 ⟨by omega, ?_⟩)
        · intro A''
          unfold bfly
          rw [if_neg (by omega)]
        · exact Nat.mod_eq_of_lt (by omega)
      rw [hnone] at hf
      cases hf

/-- **C41** For every other length above one the algorithm leaves the array: every execution accesses an element
outside the allocation. -/
theorem C41_other_lengths_fault {P : ℝ} {N : ℕ} (hN : 2 ≤ N) (hp : ∀ p, N ≠ 2 ^ p) {a : CArr}
    {res : Option CArr} (h : Fft P N a res) : res = none := by
  obtain ⟨order, -, h⟩ := h
  rcases h with ⟨-, h⟩ | ⟨c, -, h⟩
  · exact h
  · exact fftPasses_none hp h 0 (by simp) (by omega) (by simp)

/-- length three is such a length -/
example : (2 ≤ 3) ∧ ∀ p, 3 ≠ 2 ^ p := by
  refine ⟨by norm_num, ?_⟩
  intro p
  rcases p with _ | _ | p
  · norm_num
  · norm_num
  · rw [pow_succ, pow_succ]; omega

/-! ## Inversion -/

/-- index of the opposite frequency -/
def negIdx (N i : ℕ) : ℕ := (N - i) % N

theorem eps_mod (N n m : ℕ) : eps N (n * (m % N)) = eps N (n * m) := by
  rcases Nat.eq_zero_or_pos N with rfl | hN
  · simp
  · conv_rhs => rw [← Nat.div_add_mod m N]
    rw [show n * (N * (m / N) + m % N) = N * (n * (m / N)) + n * (m % N) by ring, eps_add, eps_self hN, one_mul]

theorem eps_conj (N x : ℕ) : (starRingEnd ℂ) (eps N x) * eps N x = 1 := by
  unfold eps
  rw [← Complex.exp_conj, ← Complex.exp_add]
  have : (starRingEnd ℂ) (-(2 * (Real.pi : ℂ) * Complex.I * x / N)) + -(2 * (Real.pi : ℂ) * Complex.I * x / N) = 0 := by
    simp only [map_neg, map_div₀, map_mul, map_ofNat, Complex.conj_ofReal, Complex.conj_I, map_natCast]
    ring
  rw [this, Complex.exp_zero]

theorem eps_neg {N k : ℕ} (hk : k ≤ N) (n : ℕ) :
    eps N (n * negIdx N k) = (starRingEnd ℂ) (eps N (n * k)) := by
  unfold negIdx
  rw [eps_mod]
  rcases Nat.eq_zero_or_pos N with rfl | hN
  · simp at hk; subst hk; simp [eps_zero]
  have h1 : eps N (n * (N - k)) * eps N (n * k) = 1 := by
    rw [← eps_add, ← Nat.mul_add, Nat.sub_add_cancel hk, Nat.mul_comm, eps_self hN]
  have h2 := eps_conj N (n * k)
  have h3 : eps N (n * k) ≠ 0 := by unfold eps; exact Complex.exp_ne_zero _
  exact mul_right_cancel₀ h3 (h1.trans h2.symm)

theorem negIdx_lt {N i : ℕ} (hi : i < N) : negIdx N i < N := Nat.mod_lt _ (by omega)

theorem negIdx_negIdx {N i : ℕ} (hi : i < N) : negIdx N (negIdx N i) = i := by
  unfold negIdx
  rcases Nat.eq_zero_or_pos i with rfl | h
  · simp
  · rw [Nat.mod_eq_of_lt (show N - i < N by omega), show N - (N - i) = i by omega, Nat.mod_eq_of_lt hi]

/-- the transform of real data is conjugate-symmetric -/
theorem dft_neg_real {N k : ℕ} (hk : k < N) {x : ℕ → ℂ} (hx : ∀ i < N, (x i).im = 0) :
    dft N x (negIdx N k) = (starRingEnd ℂ) (dft N x k) := by
  rw [dft_eq, dft_eq, map_sum]
  apply Finset.sum_congr rfl
  intro i hi
  rw [map_mul, eps_neg hk.le, Complex.conj_eq_iff_im.2 (hx i (Finset.mem_range.1 hi))]

/-- mirrored data give the mirrored transform -/
theorem dft_mirror {N k : ℕ} (hk : k < N) (x : ℕ → ℂ) :
    dft N (fun i => x (negIdx N i)) k = dft N x (negIdx N k) := by
  rw [dft_eq, dft_eq]
  refine Finset.sum_nbij' (negIdx N) (negIdx N) ?_ ?_ ?_ ?_ ?_
  · intro i hi; exact Finset.mem_range.2 (negIdx_lt (Finset.mem_range.1 hi))
  · intro i hi; exact Finset.mem_range.2 (negIdx_lt (Finset.mem_range.1 hi))
  · intro i hi; exact negIdx_negIdx (Finset.mem_range.1 hi)
  · intro i hi; exact negIdx_negIdx (Finset.mem_range.1 hi)
  · intro i hi
    have hi := Finset.mem_range.1 hi
    rw [eps_neg hk.le, Nat.mul_comm (negIdx N i) k, eps_neg hi.le, Complex.conj_conj, Nat.mul_comm]

theorem eps_sum {N : ℕ} (hN : 0 < N) (m : ℕ) :
    ∑ k ∈ Finset.range N, eps N (k * m) = if N ∣ m then (N : ℂ) else 0 := by
  split_ifs with h
  · obtain ⟨c, rfl⟩ := h
    rw [Finset.sum_congr rfl (g := fun _ => (1 : ℂ))]
    · simp
    · intro k _
      rw [show k * (N * c) = N * (k * c) by ring, eps_self hN]
  · have hpow : ∀ k, eps N (k * m) = eps N m ^ k := by
      intro k
      induction k with
      | zero => simp [eps_zero]
      | succ k ih => rw [Nat.succ_mul, eps_add, ih, pow_succ]
    have hne : eps N m ≠ 1 := by
      intro h1
      unfold eps at h1
      rw [Complex.exp_eq_one_iff] at h1
      obtain ⟨n, hn⟩ := h1
      apply h
      have hN0 : (N : ℂ) ≠ 0 := by exact_mod_cast hN.ne'
      have h2 : (2 * (Real.pi : ℂ) * Complex.I) ≠ 0 := Complex.two_pi_I_ne_zero
      have h3 : (2 * (Real.pi : ℂ) * Complex.I) * ((m : ℂ) + n * N) = 0 := by
        have : -(2 * (Real.pi : ℂ) * Complex.I * m) = n * (2 * Real.pi * Complex.I) * N := by
          rw [← hn]; field_simp
        linear_combination -this
      have h4 : (m : ℂ) + n * N = 0 := (mul_eq_zero.1 h3).resolve_left h2
      have h5 : (m : ℤ) = N * (-n) := by
        have : ((m : ℤ) : ℂ) + n * ((N : ℤ) : ℂ) = 0 := by exact_mod_cast h4
        have h6 : ((m + n * N : ℤ) : ℂ) = 0 := by push_cast at this ⊢; exact this
        have h7 : (m + n * N : ℤ) = 0 := by exact_mod_cast h6
        linarith
      have h8 : (N : ℤ) ∣ (m : ℤ) := ⟨-n, h5⟩
      exact_mod_cast h8
    rw [Finset.sum_congr rfl (fun k _ => hpow k), geom_sum_eq hne, ← hpow N, eps_self hN]
    simp

/-- applying the Fourier sum twice -/
theorem dft_dft {N j : ℕ} (hj : j < N) (x : ℕ → ℂ) :
    dft N (dft N x) j = N * x (negIdx N j) := by
  have hN : 0 < N := by omega
  rw [dft_eq]
  simp only [dft_eq, Finset.sum_mul]
  rw [Finset.sum_comm]
  have : ∀ n ∈ Finset.range N, ∑ k ∈ Finset.range N, x n * eps N (n * k) * eps N (k * j) =
      x n * (if N ∣ n + j then (N : ℂ) else 0) := by
    intro n _
    rw [← eps_sum hN, Finset.mul_sum]
    apply Finset.sum_congr rfl
    intro k _
    rw [show k * (n + j) = n * k + k * j by ring, eps_add]
    ring
  rw [Finset.sum_congr rfl this, Finset.sum_eq_single_of_mem (negIdx N j)
    (Finset.mem_range.2 (negIdx_lt hj))]
  · rw [if_pos, mul_comm]
    unfold negIdx
    rcases Nat.eq_zero_or_pos j with rfl | h
    · simp
    · rw [Nat.mod_eq_of_lt (by omega), Nat.sub_add_cancel hj.le]
  · intro n hn hne
    have hn := Finset.mem_range.1 hn
    rw [if_neg, mul_zero]
    rintro ⟨c, hc⟩
    apply hne
    unfold negIdx
    have hc2 : c < 2 := by
      by_contra h
      have : N * 2 ≤ N * c := Nat.mul_le_mul_left _ (by omega)
      omega
    obtain rfl | rfl : c = 0 ∨ c = 1 := by omega
    · have : n = 0 ∧ j = 0 := by omega
      rw [this.1, this.2]; simp
    · rw [show N - j = n by omega, Nat.mod_eq_of_lt hn]

theorem dft_congr {N : ℕ} {x y : ℕ → ℂ} (h : ∀ i < N, x i = y i) (k : ℕ) : dft N x k = dft N y k := by
  rw [dft_eq, dft_eq]
  apply Finset.sum_congr rfl
  intro i hi
  rw [h i (Finset.mem_range.1 hi)]

theorem dft_smul (N : ℕ) (c : ℂ) (x : ℕ → ℂ) (k : ℕ) : dft N (fun i => c * x i) k = c * dft N x k := by
  rw [dft_eq, dft_eq, Finset.mul_sum]
  apply Finset.sum_congr rfl
  intro i _
  ring

theorem eps_re_im (N x : ℕ) : eps N x =
    ⟨Real.cos (2 * Real.pi * x / N), -Real.sin (2 * Real.pi * x / N)⟩ := by
  unfold eps
  have : -(2 * (Real.pi : ℂ) * Complex.I * x / N) = ((-(2 * Real.pi * x / N) : ℝ) : ℂ) * Complex.I := by
    push_cast; ring
  rw [this]
  apply Complex.ext
  · rw [Complex.exp_ofReal_mul_I_re, Real.cos_neg]
  · rw [Complex.exp_ofReal_mul_I_im, Real.sin_neg]

/-! ## Transform of real data -/

/-- the real-data transform keeps only the real part -/
theorem realTransform_eq {p : ℕ} {inv : Bool} {a : ℕ → ℝ} {res : Option (ℕ → ℝ)}
    (h : RealTransform Real.pi (2 ^ p) inv a res) :
    ∃ y, res = some y ∧ ∀ k < 2 ^ p,
      y k = (if inv then 1 / (2 ^ p : ℝ) else 1) * (dft (2 ^ p) (fun i => (a i : ℂ)) k).re := by
  obtain ⟨r, hr, rfl⟩ := h
  obtain ⟨X, rfl, hX⟩ := (C41_fft_is_dft p _).2 r hr
  refine ⟨_, rfl, ?_⟩
  intro k hk
  simp only [if_pos hk, hX k hk]
  split_ifs <;> push_cast <;> ring

theorem realTransform_exists (p : ℕ) (inv : Bool) (a : ℕ → ℝ) :
    ∃ y, RealTransform Real.pi (2 ^ p) inv a (some y) := by
  obtain ⟨r, hr⟩ := (C41_fft_is_dft p (fun k => (a k : ℂ))).1
  obtain ⟨X, rfl, -⟩ := (C41_fft_is_dft p _).2 r hr
  exact ⟨_, _, hr, rfl⟩

/-- **C41** Transform of real data followed by the "inverse" gives the symmetric part of the data, not the data:
the imaginary parts are dropped in between. -/
theorem C41_real_roundtrip_partial {p : ℕ} {a y z : ℕ → ℝ}
    (h1 : RealTransform Real.pi (2 ^ p) false a (some y))
    (h2 : RealTransform Real.pi (2 ^ p) true y (some z)) :
    ∀ k < 2 ^ p, z k = (a k + a ((2 ^ p - k) % 2 ^ p)) / 2 := by
  obtain ⟨y', e1, hy⟩ := realTransform_eq h1
  obtain ⟨z', e2, hz⟩ := realTransform_eq h2
  cases e1; cases e2
  intro k hk
  rw [hz k hk]
  set N := 2 ^ p with hN
  set x : ℕ → ℂ := fun i => (a i : ℂ) with hx
  have hy' : ∀ i < N, ((y i : ℝ) : ℂ) = (1 / 2 : ℂ) * dft N (fun i => x i + x (negIdx N i)) i := by
    intro i hi
    have e : dft N (fun i => x i + x (negIdx N i)) i = dft N x i + (starRingEnd ℂ) (dft N x i) := by
      rw [← dft_neg_real hi (by intro i _; simp [hx]), ← dft_mirror hi, dft_eq, dft_eq, dft_eq,
        ← Finset.sum_add_distrib]
      apply Finset.sum_congr rfl
      intro j _
      ring
    rw [e, Complex.add_conj, hy i hi]
    simp
  rw [dft_congr hy' k, dft_smul, dft_dft hk, negIdx_negIdx hk]
  have hN0 : ((2 : ℝ) ^ p) ≠ 0 := by positivity
  have hNc : ((N : ℕ) : ℂ) = (((2 : ℝ) ^ p : ℝ) : ℂ) := by rw [hN]; push_cast; rfl
  have : ((1 / 2 : ℂ) * ((N : ℂ) * (x (negIdx N k) + x k))).re =
      1 / 2 * ((2 : ℝ) ^ p * (a (negIdx N k) + a k)) := by
    rw [hNc, hx]
    have : (1 / 2 : ℂ) * ((((2 : ℝ) ^ p : ℝ) : ℂ) * ((a (negIdx N k) : ℂ) + (a k : ℂ))) =
        ((1 / 2 * ((2 : ℝ) ^ p * (a (negIdx N k) + a k)) : ℝ) : ℂ) := by push_cast; ring
    dsimp only
    rw [this, Complex.ofReal_re]
  rw [this]
  simp only [if_true]
  unfold negIdx
  field_simp
  ring

/-- **C41** A unit value at position 1 of four does not survive the round trip. -/
theorem C41_real_roundtrip_violated :
    ∃ a y z : ℕ → ℝ, RealTransform Real.pi 4 false a (some y) ∧ RealTransform Real.pi 4 true y (some z) ∧
      a 1 = 1 ∧ z 1 = 1 / 2 ∧ a 3 = 0 ∧ z 3 = 1 / 2 := by
  let a : ℕ → ℝ := fun i => if i = 1 then 1 else 0
  obtain ⟨y, hy⟩ := realTransform_exists 2 false a
  obtain ⟨z, hz⟩ := realTransform_exists 2 true y
  have h := C41_real_roundtrip_partial hy hz
  refine ⟨a, y, z, by simpa using hy, by simpa using hz, by simp [a], ?_, by simp [a], ?_⟩
  · rw [h 1 (by norm_num)]; simp [a]
  · rw [h 3 (by norm_num)]; simp [a]

/-- data symmetric under index negation do survive; the hypotheses are met by a pulse on the two ends -/
example : ∃ a y z : ℕ → ℝ, RealTransform Real.pi 4 false a (some y) ∧ RealTransform Real.pi 4 true y (some z) ∧
    a 1 = 1 ∧ z 1 = 1 := by
  let a : ℕ → ℝ := fun i => if i = 1 ∨ i = 3 then 1 else 0
  obtain ⟨y, hy⟩ := realTransform_exists 2 false a
  obtain ⟨z, hz⟩ := realTransform_exists 2 true y
  have h := C41_real_roundtrip_partial hy hz
  refine ⟨a, y, z, by simpa using hy, by simpa using hz, by simp [a], ?_⟩
  rw [h 1 (by norm_num)]; simp [a]

/-! ## Sine transform -/

/-- odd extension to `2n+2` values -/
noncomputable def oddExt (n : ℕ) (a : ℕ → ℝ) (i : ℕ) : ℝ :=
  if 1 ≤ i ∧ i ≤ n then a (i - 1) else if n + 2 ≤ i ∧ i ≤ 2 * n + 1 then -a (2 * n + 1 - i) else 0

theorem sineFill_fold (n : ℕ) (a : ℕ → ℝ) (L : List ℕ) : ∀ (s : CArr), (∀ k ∈ L, k < n) → ∀ i,
    L.foldl (fun s k => Function.update (Function.update s (2 * n - k + 1) ((-a k : ℝ) : ℂ))
      (k + 1) ((a k : ℝ) : ℂ)) s i =
    if 1 ≤ i ∧ i - 1 ∈ L then ((a (i - 1) : ℝ) : ℂ)
    else if i ≤ 2 * n + 1 ∧ 2 * n + 1 - i ∈ L then ((-a (2 * n + 1 - i) : ℝ) : ℂ) else s i := by
  induction L with
  | nil => intro s _ i; simp
  | cons k L ih =>
    intro s hL i
    have hk := hL k (by simp)
    rw [List.foldl_cons, ih _ (fun x hx => hL x (by simp [hx]))]
    by_cases c1 : 1 ≤ i ∧ i - 1 ∈ L
    · rw [if_pos c1, if_pos ⟨c1.1, by simp [c1.2]⟩]
    · rw [if_neg c1]
      by_cases c2 : i = k + 1
      · subst c2
        rw [if_pos (c := 1 ≤ k + 1 ∧ _) ⟨by omega, by simp⟩, if_neg, Function.update_self]
        · simp
        · rintro ⟨-, h⟩
          have := hL _ (List.mem_cons_of_mem k h)
          omega
      · have c3 : ¬ (1 ≤ i ∧ i - 1 ∈ k :: L) := by
          rintro ⟨h1, h2⟩
          rcases List.mem_cons.1 h2 with h2 | h2
          · omega
          · exact c1 ⟨h1, h2⟩
        rw [if_neg c3, Function.update_of_ne c2]
        by_cases c4 : i ≤ 2 * n + 1 ∧ 2 * n + 1 - i ∈ L
        · rw [if_pos c4, if_pos ⟨c4.1, by simp [c4.2]⟩]
        · rw [if_neg c4]
          by_cases c5 : i = 2 * n - k + 1
          · have e : 2 * n + 1 - i = k := by omega
            rw [if_pos ⟨by omega, by simp [e]⟩, c5, Function.update_self, ← c5, e]
          · rw [Function.update_of_ne c5, if_neg]
            rintro ⟨h1, h2⟩
            rcases List.mem_cons.1 h2 with h2 | h2
            · omega
            · exact c4 ⟨h1, h2⟩

theorem sineFill_eq {n : ℕ} (a : ℕ → ℝ) {order : List ℕ} (ho : order.Perm (List.range n)) (i : ℕ) :
    sineFill n a order i = (oddExt n a i : ℂ) := by
  have hm : ∀ x, x ∈ order ↔ x < n := fun x => by rw [ho.mem_iff, List.mem_range]
  unfold sineFill
  rw [sineFill_fold n a order _ (fun k hk => (hm k).1 hk) i]
  unfold oddExt
  simp only [hm]
  by_cases c1 : 1 ≤ i ∧ i ≤ n
  · rw [if_pos c1, if_pos (by omega)]
  · rw [if_neg c1, if_neg (by omega)]
    by_cases c2 : n + 2 ≤ i ∧ i ≤ 2 * n + 1
    · rw [if_pos c2, if_pos (by omega)]
    · rw [if_neg c2, if_neg (by omega)]; simp

theorem oddExt_neg {n i : ℕ} (hi : i < 2 * n + 2) (a : ℕ → ℝ) :
    oddExt n a (negIdx (2 * n + 2) i) = -oddExt n a i := by
  rcases Nat.eq_zero_or_pos i with rfl | h0
  · simp [negIdx, oddExt]
  · have e : negIdx (2 * n + 2) i = 2 * n + 2 - i := by
      unfold negIdx; rw [Nat.mod_eq_of_lt (by omega)]
    rw [e]
    unfold oddExt
    by_cases c1 : 1 ≤ i ∧ i ≤ n
    · rw [if_neg (by omega), if_pos (by omega), if_pos c1]
      congr 2; omega
    · by_cases c2 : n + 2 ≤ i
      · rw [if_pos (by omega), if_neg (by omega), if_pos (by omega), neg_neg]
        congr 1; omega
      · rw [if_neg (by omega), if_neg (by omega), if_neg (by omega), if_neg (by omega), neg_zero]

/-- the sine sum of `n` values -/
noncomputable def sineSum (n : ℕ) (a : ℕ → ℝ) (k : ℕ) : ℝ :=
  ∑ j ∈ Finset.range n, a j * Real.sin (Real.pi * (j + 1) * (k + 1) / (n + 1))

theorem sym_sum (n : ℕ) (g : ℕ → ℝ) (h : ∀ j < n, g (2 * n + 1 - j) = g (j + 1)) :
    ∑ i ∈ Finset.range (2 * n + 2), g i = g 0 + g (n + 1) + 2 * ∑ j ∈ Finset.range n, g (j + 1) := by
  rw [show 2 * n + 2 = (n + 1) + (n + 1) by ring, Finset.sum_range_add, Finset.sum_range_succ',
    Finset.sum_range_succ' (fun x => g (n + 1 + x))]
  have : ∑ j ∈ Finset.range n, g (n + 1 + (j + 1)) = ∑ j ∈ Finset.range n, g (j + 1) := by
    rw [← Finset.sum_range_reflect]
    apply Finset.sum_congr rfl
    intro j hj
    have hj := Finset.mem_range.1 hj
    rw [← h j hj]
    congr 1
    omega
  rw [this]
  simp only [add_zero]
  ring

theorem dft_odd_im (n : ℕ) (a : ℕ → ℝ) (k : ℕ) :
    (dft (2 * n + 2) (fun i => (oddExt n a i : ℂ)) (k + 1)).im = -2 * sineSum n a k := by
  have hn : ((n : ℝ) + 1) ≠ 0 := by positivity
  rw [dft_eq, Complex.im_sum]
  have t : ∀ i, ((oddExt n a i : ℂ) * eps (2 * n + 2) (i * (k + 1))).im =
      -(oddExt n a i * Real.sin (Real.pi * i * (k + 1) / (n + 1))) := by
    intro i
    rw [eps_re_im, Complex.im_ofReal_mul]
    have : 2 * Real.pi * ((i * (k + 1) : ℕ) : ℝ) / ((2 * n + 2 : ℕ) : ℝ) =
        Real.pi * i * (k + 1) / (n + 1) := by
      push_cast
      rw [show (2 * (n : ℝ) + 2) = 2 * (n + 1) by ring]
      field_simp
    rw [this]
    ring
  rw [Finset.sum_congr rfl (fun i _ => t i), Finset.sum_neg_distrib, sym_sum]
  · have e0 : oddExt n a 0 = 0 := by simp [oddExt]
    have e1 : oddExt n a (n + 1) = 0 := by
      unfold oddExt; rw [if_neg (by omega), if_neg (by omega)]
    rw [e0, e1, zero_mul, zero_mul]
    unfold sineSum
    have : ∑ j ∈ Finset.range n, oddExt n a (j + 1) * Real.sin (Real.pi * ((j + 1 : ℕ) : ℝ) * (k + 1) / (n + 1)) =
        ∑ j ∈ Finset.range n, a j * Real.sin (Real.pi * (j + 1) * (k + 1) / (n + 1)) := by
      apply Finset.sum_congr rfl
      intro j hj
      have hj := Finset.mem_range.1 hj
      unfold oddExt
      rw [if_pos (by omega), Nat.add_sub_cancel]
      push_cast
      rfl
    rw [this]
    ring
  · intro j hj
    have e : oddExt n a (2 * n + 1 - j) = -oddExt n a (j + 1) := by
      rw [← oddExt_neg (by omega)]
      congr 1
      unfold negIdx
      rw [Nat.mod_eq_of_lt (by omega)]
      omega
    rw [e]
    have c : ((2 * n + 1 - j : ℕ) : ℝ) = 2 * (n + 1) - (j + 1) := by
      rw [Nat.cast_sub (by omega)]
      push_cast
      ring
    have e2 : Real.pi * ((2 * n + 1 - j : ℕ) : ℝ) * (k + 1) / (n + 1) =
        ((k + 1 : ℕ) : ℝ) * (2 * Real.pi) - Real.pi * ((j + 1 : ℕ) : ℝ) * (k + 1) / (n + 1) := by
      rw [c]
      push_cast
      field_simp
    rw [e2, Real.sin_nat_mul_two_pi_sub]
    ring

/-- what the sine transform computes -/
theorem sineTransform_eq {n p : ℕ} (hn : n + 1 = 2 ^ p) {inv : Bool} {a : ℕ → ℝ} {res : Option (ℕ → ℝ)}
    (h : SineTransform Real.pi n inv a res) :
    ∃ y, res = some y ∧ ∀ k < n, y k = (if inv then 2 / ((n : ℝ) + 1) else 1) * sineSum n a k := by
  obtain ⟨order, r, ho, hr, rfl⟩ := h
  have hN : 2 * n + 2 = 2 ^ (p + 1) := by rw [pow_succ, ← hn]; ring
  rw [hN] at hr
  obtain ⟨X, rfl, hX⟩ := (C41_fft_is_dft (p + 1) _).2 r hr
  refine ⟨_, rfl, ?_⟩
  intro k hk
  simp only [if_pos hk]
  rw [← hN] at hX
  have e : dft (2 * n + 2) (sineFill n a order) (k + 1) =
      dft (2 * n + 2) (fun i => (oddExt n a i : ℂ)) (k + 1) :=
    dft_congr (fun i _ => sineFill_eq a ho i) _
  have hre : (-(1 : ℂ) / (2 * Complex.I) * X (k + 1)).re = sineSum n a k := by
    have h1 : -(1 : ℂ) / (2 * Complex.I) = (1 / 2 : ℝ) * Complex.I := by
      rw [div_eq_iff (by simp)]
      push_cast
      linear_combination (-1 : ℂ) * Complex.I_mul_I
    rw [h1, mul_assoc, Complex.re_ofReal_mul, Complex.I_mul_re, hX (k + 1) (by omega), e, dft_odd_im]
    ring
  rw [hre]
  split_ifs <;> ring

theorem sineTransform_exists {n p : ℕ} (hn : n + 1 = 2 ^ p) (inv : Bool) (a : ℕ → ℝ) :
    ∃ y, SineTransform Real.pi n inv a (some y) := by
  have hN : 2 * n + 2 = 2 ^ (p + 1) := by rw [pow_succ, ← hn]; ring
  obtain ⟨r, hr⟩ := (C41_fft_is_dft (p + 1) (sineFill n a (List.range n))).1
  obtain ⟨X, rfl, -⟩ := (C41_fft_is_dft (p + 1) _).2 r hr
  rw [← hN] at hr
  exact ⟨_, _, _, List.Perm.refl _, hr, rfl⟩

/-- the odd extension of the sine sums is the imaginary part of the Fourier sums -/
theorem dft_odd (n : ℕ) (a : ℕ → ℝ) {k : ℕ} (hk : k < 2 * n + 2) :
    dft (2 * n + 2) (fun i => (oddExt n a i : ℂ)) k = (-2 * Complex.I) * (oddExt n (sineSum n a) k : ℂ) := by
  set x : ℕ → ℂ := fun i => (oddExt n a i : ℂ) with hx
  have odd : ∀ k < 2 * n + 2, dft (2 * n + 2) x (negIdx (2 * n + 2) k) = -dft (2 * n + 2) x k := by
    intro k hk
    rw [← dft_mirror hk]
    have : dft (2 * n + 2) (fun i => x (negIdx (2 * n + 2) i)) k = dft (2 * n + 2) (fun i => (-1) * x i) k := by
      apply dft_congr
      intro i hi
      rw [hx]
      dsimp only
      rw [oddExt_neg hi]
      push_cast; ring
    rw [this, dft_smul]; ring
  have hre : ∀ k < 2 * n + 2, (dft (2 * n + 2) x k).re = 0 := by
    intro k hk
    have h1 := odd k hk
    rw [dft_neg_real hk (by intro i _; simp [hx])] at h1
    have := congrArg Complex.re h1
    rw [Complex.conj_re, Complex.neg_re] at this
    linarith
  have him : ∀ k < 2 * n + 2, (dft (2 * n + 2) x k).im = -2 * oddExt n (sineSum n a) k := by
    intro k hk
    have himneg : (dft (2 * n + 2) x (negIdx (2 * n + 2) k)).im = -(dft (2 * n + 2) x k).im := by
      rw [odd k hk, Complex.neg_im]
    by_cases c1 : 1 ≤ k ∧ k ≤ n
    · obtain ⟨k', rfl⟩ : ∃ k', k = k' + 1 := ⟨k - 1, by omega⟩
      rw [hx, dft_odd_im]
      unfold oddExt
      rw [if_pos c1, Nat.add_sub_cancel]
    · by_cases c2 : n + 2 ≤ k
      · obtain ⟨k', hk'⟩ : ∃ k', 2 * n + 2 - k = k' + 1 := ⟨2 * n + 2 - k - 1, by omega⟩
        have e : negIdx (2 * n + 2) k = k' + 1 := by
          unfold negIdx; rw [Nat.mod_eq_of_lt (by omega), hk']
        rw [e, hx, dft_odd_im] at himneg
        have : oddExt n (sineSum n a) k = -sineSum n a k' := by
          unfold oddExt
          rw [if_neg c1, if_pos (by omega)]
          congr 2; omega
        rw [this]; linarith
      · have e : negIdx (2 * n + 2) k = k := by
          unfold negIdx
          rcases Nat.eq_zero_or_pos k with rfl | h
          · simp
          · rw [Nat.mod_eq_of_lt (by omega)]; omega
        rw [e] at himneg
        have : oddExt n (sineSum n a) k = 0 := by
          unfold oddExt
          rw [if_neg c1, if_neg (by omega)]
        rw [this]; linarith
  have hI : (-2 * Complex.I) * (oddExt n (sineSum n a) k : ℂ) =
      ((-2 * oddExt n (sineSum n a) k : ℝ) : ℂ) * Complex.I := by push_cast; ring
  rw [hI]
  apply Complex.ext
  · rw [hre k hk]; simp
  · rw [him k hk]; simp

/-- the sine sum is its own inverse up to the factor `(n+1)/2` -/
theorem sineSum_sineSum {n k : ℕ} (hk : k < n) (a : ℕ → ℝ) :
    sineSum n (sineSum n a) k = ((n : ℝ) + 1) / 2 * a k := by
  have h1 := dft_odd_im n (sineSum n a) k
  have h2 : dft (2 * n + 2) (fun i => (-2 * Complex.I) * (oddExt n (sineSum n a) i : ℂ)) (k + 1) =
      dft (2 * n + 2) (dft (2 * n + 2) (fun i => (oddExt n a i : ℂ))) (k + 1) :=
    dft_congr (fun i hi => (dft_odd n a hi).symm) _
  rw [dft_smul, dft_dft (by omega), oddExt_neg (by omega)] at h2
  have e : oddExt n a (k + 1) = a k := by
    unfold oddExt; rw [if_pos (by omega), Nat.add_sub_cancel]
  rw [e] at h2
  have h3 := congrArg Complex.re h2
  have e3 : ((-2 * Complex.I) * dft (2 * n + 2) (fun i => (oddExt n (sineSum n a) i : ℂ)) (k + 1)).re =
      2 * (dft (2 * n + 2) (fun i => (oddExt n (sineSum n a) i : ℂ)) (k + 1)).im := by
    simp [Complex.mul_re]
  rw [e3, h1] at h3
  have e4 : (((2 * n + 2 : ℕ) : ℂ) * ((-a k : ℝ) : ℂ)).re = -((2 * (n : ℝ) + 2) * a k) := by
    have : ((2 * n + 2 : ℕ) : ℂ) * ((-a k : ℝ) : ℂ) = ((-((2 * (n : ℝ) + 2) * a k) : ℝ) : ℂ) := by
      push_cast; ring
    rw [this, Complex.ofReal_re]
  rw [e4] at h3
  linarith

/-- **C41** The sine transform of a row of `n = 2^p - 1` values computes the sine sums, scaled by `2/(n+1)` when
called as inverse; it always terminates normally. -/
theorem C41_sine_transform {n p : ℕ} (hn : n + 1 = 2 ^ p) (inv : Bool) (a : ℕ → ℝ) :
    (∃ res, SineTransform Real.pi n inv a res) ∧
    ∀ res, SineTransform Real.pi n inv a res → ∃ y, res = some y ∧ ∀ k < n,
      y k = (if inv then 2 / ((n : ℝ) + 1) else 1) *
        ∑ j ∈ Finset.range n, a j * Real.sin (Real.pi * (j + 1) * (k + 1) / (n + 1)) :=
  ⟨(sineTransform_exists hn inv a).elim fun y h => ⟨some y, h⟩, fun _ h => sineTransform_eq hn h⟩

/-- **C41** Sine transform followed by its inverse gives the row back. -/
theorem C41_sine_roundtrip {n p : ℕ} (hn : n + 1 = 2 ^ p) {a y z : ℕ → ℝ}
    (h1 : SineTransform Real.pi n false a (some y)) (h2 : SineTransform Real.pi n true y (some z)) :
    ∀ k < n, z k = a k := by
  obtain ⟨y', e1, hy⟩ := sineTransform_eq hn h1
  obtain ⟨z', e2, hz⟩ := sineTransform_eq hn h2
  cases e1; cases e2
  intro k hk
  rw [hz k hk]
  have : sineSum n y k = sineSum n (sineSum n a) k := by
    unfold sineSum
    apply Finset.sum_congr rfl
    intro j hj
    rw [hy j (Finset.mem_range.1 hj)]
    simp [sineSum]
  rw [this, sineSum_sineSum hk]
  have hn0 : ((n : ℝ) + 1) ≠ 0 := by positivity
  simp only [if_true]
  field_simp

/-- seven values -/
example (a : ℕ → ℝ) : ∃ y z, SineTransform Real.pi 7 false a (some y) ∧ SineTransform Real.pi 7 true y (some z) ∧
    z 3 = a 3 := by
  obtain ⟨y, hy⟩ := sineTransform_exists (n := 7) (p := 3) (by norm_num) false a
  obtain ⟨z, hz⟩ := sineTransform_exists (n := 7) (p := 3) (by norm_num) true y
  exact ⟨y, z, hy, hz, C41_sine_roundtrip (p := 3) (by norm_num) hy hz 3 (by norm_num)⟩

/-- **C41** For every other row length the sine transform accesses memory outside its buffer. -/
theorem C41_sine_other_lengths_fault {P : ℝ} {n : ℕ} (hn : ∀ p, n + 1 ≠ 2 ^ p) {inv : Bool} {a : ℕ → ℝ}
    {res : Option (ℕ → ℝ)} (h : SineTransform P n inv a res) : res = none := by
  obtain ⟨order, r, -, hr, rfl⟩ := h
  have : r = none := by
    refine C41_other_lengths_fault (by omega) ?_ hr
    intro p hp
    rcases p with _ | p
    · omega
    · rw [pow_succ] at hp
      exact hn p (by omega)
  rw [this]; rfl

/-- eight values are such a length -/
example : ∀ p, 8 + 1 ≠ 2 ^ p := by
  intro p h
  rcases p with _ | p
  · norm_num at h
  · rw [pow_succ] at h; omega

/-! ## Cosine transform -/

/-- even extension of `n` values to `2n-2` values -/
def evenExt (n : ℕ) (a : ℕ → ℝ) (i : ℕ) : ℝ := if i < n then a i else a (2 * n - 2 - i)

/-- **C41** The cosine transform is not usable: for every row of three values or more, every execution writes
outside the buffer (the index of line 65 for `k = 0` equals the buffer size). -/
theorem C41_cosine_violated {P : ℝ} {n : ℕ} (hn : 3 ≤ n) {inv : Bool} {a : ℕ → ℝ} :
    (∃ res, CosTransform P n inv a res) ∧ ∀ res, CosTransform P n inv a res → res = none := by
  have hf : ∀ order : List ℕ, order.Perm (List.range (n - 2)) → cosFill (2 * n - 2) n a order = none := by
    intro order ho
    unfold cosFill
    rw [foldlM_none (cosStep (2 * n - 2) n a) 0]
    · rfl
    · intro s
      unfold cosStep
      rw [if_neg (by omega)]
    · rw [ho.mem_iff, List.mem_range]; omega
  constructor
  · exact ⟨none, _, List.Perm.refl _, Or.inl ⟨hf _ (List.Perm.refl _), rfl⟩⟩
  · rintro res ⟨order, ho, ⟨-, h⟩ | ⟨s, r, h, -⟩⟩
    · exact h
    · rw [hf order ho] at h; cases h

/-- filling in any order, when the allocation is large enough -/
theorem cosFill_fold {size n : ℕ} (hs : 2 * n - 1 ≤ size) (a : ℕ → ℝ) (L : List ℕ) :
    ∀ (s : CArr), (∀ k ∈ L, k + 2 < n) → (∀ i, (s i).im = 0) →
    ∃ c : CArr, L.foldlM (cosStep size n a) s = some c ∧ (∀ i, (c i).im = 0) ∧
      ∀ i, (c i).re = if i ∈ L then a i else if n ≤ i ∧ i - n ∈ L then a (2 * n - 2 - i) else (s i).re := by
  induction L with
  | nil => intro s _ h; exact ⟨s, rfl, h, fun i => by simp⟩
  | cons k L ih =>
    intro s hL hs0
    have hk := hL k (by simp)
    rw [List.foldlM_cons]
    unfold cosStep
    rw [if_pos (by omega)]
    simp only [Option.bind_eq_bind, Option.bind_some]
    set s1 := Function.update s (n + k) (⟨a (n - k - 2), (s (n + k)).im⟩ : ℂ) with hs1
    set s2 := Function.update s1 (2 * n - k - 2) (⟨(s1 (2 * n - k - 2)).re, 0⟩ : ℂ) with hs2
    have h1 : ∀ i, (s1 i).im = 0 := by
      intro i
      rw [hs1, Function.update_apply]
      split_ifs
      · exact hs0 _
      · exact hs0 _
    have h2 : ∀ i, s2 i = s1 i := by
      intro i
      rw [hs2, Function.update_apply]
      split_ifs with h
      · rw [h]; apply Complex.ext
        · rfl
        · exact (h1 _).symm
      · rfl
    obtain ⟨c, hc, hc0, hcv⟩ := ih (Function.update s2 k (⟨a k, 0⟩ : ℂ)) (fun x hx => hL x (by simp [hx])) (by
      intro i
      rw [Function.update_apply]
      split_ifs
      · rfl
      · rw [h2]; exact h1 i)
    refine ⟨c, hc, hc0, ?_⟩
    intro i
    rw [hcv]
    by_cases c1 : i ∈ L
    · rw [if_pos c1, if_pos (by simp [c1])]
    · rw [if_neg c1]
      by_cases c2 : i = k
      · subst c2
        rw [if_neg (by omega), if_pos (by simp), Function.update_self]
      · rw [if_neg (c := i ∈ k :: L) (by simp [c1, c2]), Function.update_of_ne c2, h2]
        by_cases c3 : n ≤ i ∧ i - n ∈ L
        · rw [if_pos c3, if_pos ⟨c3.1, by simp [c3.2]⟩]
        · rw [if_neg c3]
          by_cases c4 : i = n + k
          · rw [if_pos ⟨by omega, by rw [c4]; simp⟩, c4, hs1, Function.update_self]
            show a (n - k - 2) = a (2 * n - 2 - (n + k))
            rw [show 2 * n - 2 - (n + k) = n - k - 2 by omega]
          · rw [if_neg, hs1, Function.update_of_ne c4]
            rintro ⟨h, h'⟩
            rcases List.mem_cons.1 h' with h' | h'
            · omega
            · exact c3 ⟨h, h'⟩

theorem cosFill_eq {size n : ℕ} (hn : 2 ≤ n) (hs : 2 * n - 1 ≤ size) (a : ℕ → ℝ) {order : List ℕ}
    (ho : order.Perm (List.range (n - 2))) :
    ∃ c : CArr, cosFill size n a order = some c ∧ ∀ i < 2 * n - 2, c i = (evenExt n a i : ℂ) := by
  have hm : ∀ x, x ∈ order ↔ x + 2 < n := fun x => by
    rw [ho.mem_iff, List.mem_range]; omega
  obtain ⟨c, hc, hc0, hcv⟩ := cosFill_fold hs a order (fun _ => 0) (fun k hk => (hm k).1 hk) (fun _ => rfl)
  unfold cosFill
  rw [hc]
  simp only [Option.bind_some]
  rw [if_pos (by omega)]
  refine ⟨_, rfl, ?_⟩
  intro i hi
  rw [Function.update_apply, Function.update_apply]
  have real : ∀ x : ℝ, (⟨x, 0⟩ : ℂ) = (x : ℂ) := fun x => rfl
  unfold evenExt
  split_ifs with h1 h2 h3 h4
  · rw [real, h1]
  · omega
  · rw [real, h3]
  · omega
  · apply Complex.ext
    · rw [hcv i, if_pos ((hm i).2 (by omega))]; rfl
    · rw [hc0]; rfl
  · apply Complex.ext
    · rw [hcv i, if_neg (by rw [hm]; omega), if_pos ⟨by omega, by rw [hm]; omega⟩]; rfl
    · rw [hc0]; rfl

theorem evenExt_neg {n i : ℕ} (hn : 2 ≤ n) (hi : i < 2 * n - 2) (a : ℕ → ℝ) :
    evenExt n a (negIdx (2 * n - 2) i) = evenExt n a i := by
  unfold negIdx evenExt
  rcases Nat.eq_zero_or_pos i with rfl | h0
  · simp
  · rw [Nat.mod_eq_of_lt (by omega)]
    split_ifs with h1 h2
    · congr 1; omega
    · rfl
    · congr 1; omega
    · omega

/-- the cosine sum of `n` values: the first and the last value count half -/
noncomputable def cosSum (n : ℕ) (a : ℕ → ℝ) (k : ℕ) : ℝ :=
  a 0 / 2 + (-1) ^ k * a (n - 1) / 2 +
    ∑ j ∈ Finset.range (n - 2), a (j + 1) * Real.cos (Real.pi * (j + 1) * k / ((n : ℝ) - 1))

theorem dft_even {n : ℕ} (hn : 2 ≤ n) (a : ℕ → ℝ) {k : ℕ} (hk : k < 2 * n - 2) :
    dft (2 * n - 2) (fun i => (evenExt n a i : ℂ)) k = ((2 * cosSum n a k : ℝ) : ℂ) := by
  obtain ⟨m, rfl⟩ : ∃ m, n = m + 2 := ⟨n - 2, by omega⟩
  have hN : 2 * (m + 2) - 2 = 2 * m + 2 := by omega
  set x : ℕ → ℂ := fun i => (evenExt (m + 2) a i : ℂ) with hx
  have even : dft (2 * (m + 2) - 2) x (negIdx (2 * (m + 2) - 2) k) = dft (2 * (m + 2) - 2) x k := by
    rw [← dft_mirror hk]
    apply dft_congr
    intro i hi
    rw [hx]
    dsimp only
    rw [evenExt_neg hn hi]
  apply Complex.ext
  · rw [Complex.ofReal_re, dft_eq, Complex.re_sum]
    have hm : ((m : ℝ) + 1) ≠ 0 := by positivity
    have t : ∀ i, (x i * eps (2 * (m + 2) - 2) (i * k)).re =
        evenExt (m + 2) a i * Real.cos (Real.pi * i * k / (m + 1)) := by
      intro i
      rw [hx, eps_re_im, Complex.re_ofReal_mul, hN]
      have : 2 * Real.pi * ((i * k : ℕ) : ℝ) / ((2 * m + 2 : ℕ) : ℝ) = Real.pi * i * k / (m + 1) := by
        push_cast
        rw [show (2 * (m : ℝ) + 2) = 2 * (m + 1) by ring]
        field_simp
      rw [this]
    rw [Finset.sum_congr rfl (fun i _ => t i), hN, sym_sum]
    · unfold cosSum
      have e0 : evenExt (m + 2) a 0 = a 0 := by simp [evenExt]
      have e1 : evenExt (m + 2) a (m + 1) = a (m + 1) := by simp [evenExt]
      have e2 : Real.cos (Real.pi * ((0 : ℕ) : ℝ) * k / (m + 1)) = 1 := by simp
      have e3 : Real.cos (Real.pi * ((m + 1 : ℕ) : ℝ) * k / (m + 1)) = (-1) ^ k := by
        have : Real.pi * ((m + 1 : ℕ) : ℝ) * k / (m + 1) = k * Real.pi := by
          push_cast; field_simp
        rw [this, Real.cos_nat_mul_pi]
      rw [e0, e1, e2, e3]
      have : ∑ j ∈ Finset.range m, evenExt (m + 2) a (j + 1) * Real.cos (Real.pi * ((j + 1 : ℕ) : ℝ) * k / (m + 1)) =
          ∑ j ∈ Finset.range (m + 2 - 2), a (j + 1) *
            Real.cos (Real.pi * (j + 1) * k / (((m + 2 : ℕ) : ℝ) - 1)) := by
        apply Finset.sum_congr rfl
        intro j hj
        have hj := Finset.mem_range.1 hj
        unfold evenExt
        rw [if_pos (by omega)]
        push_cast
        rw [show (m : ℝ) + 2 - 1 = m + 1 by ring]
      rw [this, show m + 2 - 1 = m + 1 by omega]
      ring
    · intro j hj
      have e : evenExt (m + 2) a (2 * m + 1 - j) = evenExt (m + 2) a (j + 1) := by
        rw [← evenExt_neg hn (show j + 1 < 2 * (m + 2) - 2 by omega)]
        congr 1
        unfold negIdx
        rw [Nat.mod_eq_of_lt (by omega)]
        omega
      rw [e]
      have c : ((2 * m + 1 - j : ℕ) : ℝ) = 2 * (m + 1) - (j + 1) := by
        rw [Nat.cast_sub (by omega)]
        push_cast
        ring
      have e2 : Real.pi * ((2 * m + 1 - j : ℕ) : ℝ) * k / (m + 1) =
          (k : ℝ) * (2 * Real.pi) - Real.pi * ((j + 1 : ℕ) : ℝ) * k / (m + 1) := by
        rw [c]
        push_cast
        field_simp
      rw [e2, Real.cos_nat_mul_two_pi_sub]
  · rw [Complex.ofReal_im]
    rw [dft_neg_real hk (by intro i _; simp [hx])] at even
    have := congrArg Complex.im even
    rw [Complex.conj_im] at this
    linarith

theorem cosSum_congr {n : ℕ} (hn : 2 ≤ n) {a b : ℕ → ℝ} (h : ∀ i < n, a i = b i) (k : ℕ) :
    cosSum n a k = cosSum n b k := by
  unfold cosSum
  rw [h 0 (by omega), h (n - 1) (by omega)]
  congr 1
  apply Finset.sum_congr rfl
  intro j hj
  rw [h (j + 1) (by have := Finset.mem_range.1 hj; omega)]

/-- the cosine sum is its own inverse up to the factor `(n-1)/2` -/
theorem cosSum_cosSum {n k : ℕ} (hn : 2 ≤ n) (hk : k < n) (a : ℕ → ℝ) :
    cosSum n (cosSum n a) k = ((n : ℝ) - 1) / 2 * a k := by
  have key : ∀ k < 2 * n - 2, cosSum n (cosSum n a) k = ((n : ℝ) - 1) / 2 * evenExt n a k := by
    intro k hk
    have h1 := dft_even hn (cosSum n a) hk
    have ext : ∀ i < 2 * n - 2, ((evenExt n (cosSum n a) i : ℝ) : ℂ) =
        (1 / 2 : ℂ) * dft (2 * n - 2) (fun i => (evenExt n a i : ℂ)) i := by
      intro i hi
      have : dft (2 * n - 2) (fun i => (evenExt n a i : ℂ)) i = ((2 * evenExt n (cosSum n a) i : ℝ) : ℂ) := by
        by_cases hin : i < n
        · rw [dft_even hn a hi]; unfold evenExt; rw [if_pos hin]
        · have e : negIdx (2 * n - 2) i = 2 * n - 2 - i := by
            unfold negIdx; rw [Nat.mod_eq_of_lt (by omega)]
          have h2 : dft (2 * n - 2) (fun i => (evenExt n a i : ℂ)) i =
              dft (2 * n - 2) (fun i => (evenExt n a i : ℂ)) (negIdx (2 * n - 2) i) := by
            rw [← dft_mirror hi]
            apply dft_congr
            intro j hj
            rw [evenExt_neg hn hj]
          rw [h2, e, dft_even hn a (by omega)]
          conv_rhs => rw [evenExt, if_neg hin]
      rw [this]; push_cast; ring
    rw [dft_congr ext, dft_smul, dft_dft hk, evenExt_neg hn hk] at h1
    have hc : ((2 * n - 2 : ℕ) : ℂ) = ((2 * ((n : ℝ) - 1) : ℝ) : ℂ) := by
      rw [Nat.cast_sub (by omega)]; push_cast; ring
    rw [hc] at h1
    have h3 : ((1 / 2 * (2 * ((n : ℝ) - 1) * evenExt n a k) : ℝ) : ℂ) = ((2 * cosSum n (cosSum n a) k : ℝ) : ℂ) := by
      rw [← h1]; push_cast; ring
    have h4 : 1 / 2 * (2 * ((n : ℝ) - 1) * evenExt n a k) = 2 * cosSum n (cosSum n a) k := by exact_mod_cast h3
    linarith
  by_cases h2 : k < 2 * n - 2
  · rw [key k h2]; unfold evenExt; rw [if_pos hk]
  · -- two values only
    have hn2 : n = 2 := by omega
    omega

theorem cosTransform_eq {size n p : ℕ} (hn : n = 2 ^ p + 1) (hs : 2 * n - 1 ≤ size) {inv : Bool} {a : ℕ → ℝ}
    {res : Option (ℕ → ℝ)} (h : CosTransformSized size Real.pi n inv a res) :
    ∃ y, res = some y ∧ ∀ k < n, y k = (if inv then 2 / ((n : ℝ) - 1) else 1) * cosSum n a k := by
  have hp : 1 ≤ 2 ^ p := Nat.one_le_two_pow
  have hN : 2 * n - 2 = 2 ^ (p + 1) := by rw [pow_succ, hn]; omega
  obtain ⟨order, ho, h⟩ := h
  obtain ⟨c, hc, hcv⟩ := cosFill_eq (size := size) (by omega) hs a ho
  rcases h with ⟨h, -⟩ | ⟨s, r, h, hr, rfl⟩
  · rw [hc] at h; cases h
  · rw [hc] at h; cases h
    have hr' := hr
    rw [hN] at hr'
    obtain ⟨X, rfl, hX⟩ := (C41_fft_is_dft (p + 1) _).2 r hr'
    rw [← hN] at hX
    refine ⟨_, rfl, ?_⟩
    intro k hk
    simp only [if_pos hk]
    have e : (X k).re = 2 * cosSum n a k := by
      rw [hX k (by omega), dft_congr hcv, dft_even (by omega) a (by omega), Complex.ofReal_re]
    rw [e]
    split_ifs <;> ring

/-- **C41** (what the cosine transform would do with one more element in its buffer) With a buffer of `2n-1`
elements or more it computes, for rows of `2^p + 1` values, the cosine sums, and transform followed by inverse
gives the row back. -/
theorem C41_cosine_partial {size n p : ℕ} (hn : n = 2 ^ p + 1) (hs : 2 * n - 1 ≤ size) {a y z : ℕ → ℝ}
    (h1 : CosTransformSized size Real.pi n false a (some y))
    (h2 : CosTransformSized size Real.pi n true y (some z)) :
    (∀ k < n, y k = a 0 / 2 + (-1) ^ k * a (n - 1) / 2 +
      ∑ j ∈ Finset.range (n - 2), a (j + 1) * Real.cos (Real.pi * (j + 1) * k / ((n : ℝ) - 1))) ∧
    ∀ k < n, z k = a k := by
  have hp : 1 ≤ 2 ^ p := Nat.one_le_two_pow
  obtain ⟨y', e1, hy⟩ := cosTransform_eq hn hs h1
  obtain ⟨z', e2, hz⟩ := cosTransform_eq hn hs h2
  cases e1; cases e2
  simp only [if_true, if_false, one_mul, Bool.false_eq_true] at hy hz
  refine ⟨hy, ?_⟩
  intro k hk
  rw [hz k hk, cosSum_congr (by omega) hy, cosSum_cosSum (by omega) hk]
  have hn1 : ((n : ℝ) - 1) ≠ 0 := by
    rw [hn]; push_cast
    have : (0 : ℝ) < 2 ^ p := by positivity
    linarith
  field_simp

theorem cosTransform_exists {size n p : ℕ} (hn : n = 2 ^ p + 1) (hs : 2 * n - 1 ≤ size) (inv : Bool)
    (a : ℕ → ℝ) : ∃ y, CosTransformSized size Real.pi n inv a (some y) := by
  have hp : 1 ≤ 2 ^ p := Nat.one_le_two_pow
  have hN : 2 * n - 2 = 2 ^ (p + 1) := by rw [pow_succ, hn]; omega
  obtain ⟨c, hc, -⟩ := cosFill_eq (size := size) (by omega) hs a (List.Perm.refl (List.range (n - 2)))
  obtain ⟨r, hr⟩ := (C41_fft_is_dft (p + 1) c).1
  obtain ⟨X, rfl, -⟩ := (C41_fft_is_dft (p + 1) _).2 r hr
  rw [← hN] at hr
  exact ⟨_, _, List.Perm.refl _, Or.inr ⟨c, _, hc, hr, rfl⟩⟩

/-- five values and a buffer of nine -/
example (a : ℕ → ℝ) : ∃ y z, CosTransformSized 9 Real.pi 5 false a (some y) ∧
    CosTransformSized 9 Real.pi 5 true y (some z) ∧ z 2 = a 2 := by
  obtain ⟨y, hy⟩ := cosTransform_exists (size := 9) (n := 5) (p := 2) (by norm_num) (by norm_num) false a
  obtain ⟨z, hz⟩ := cosTransform_exists (size := 9) (n := 5) (p := 2) (by norm_num) (by norm_num) true y
  exact ⟨y, z, hy, hz, (C41_cosine_partial (p := 2) (by norm_num) (by norm_num) hy hz).2 2 (by norm_num)⟩

end Verif
