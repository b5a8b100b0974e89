import Verif.LoadProps
import Mathlib.Data.Int.CardIntervalMod
import Mathlib.Data.Nat.ChineseRemainder
import Mathlib.Analysis.SumIntegralComparisons

/-!
# Equidistribution of the pairs of reproducible random numbers

The draws of a species are `random_reverse(n, 13)` and `random_reverse(number - 1 - n, 11)`. Means over these pairs of
products of monotone functions differ from the product of the integrals by an explicit bound.
-/

namespace Verif

open Finset

/-! ## Leading digits -/

theorem vdc_split (p : ℕ) (hp : 2 ≤ p) (a m n : ℕ) :
    vdc p (a + m) n = ((rev p a n : ℝ) + vdc p m (n / p ^ a)) / (p : ℝ) ^ a := by
  have p0 : (p : ℝ) ≠ 0 := by positivity
  induction a generalizing n with
  | zero => simp [rev]
  | succ a ih =>
    rw [show a + 1 + m = (a + m) + 1 by ring]
    simp only [vdc, rev]
    rw [ih, Nat.div_div_eq_div_mul, ← pow_succ']
    push_cast
    field_simp
    ring

/-- The first `a` digits of `random_reverse(n, p)` are the last `a` digits of `n`, reversed. -/
theorem randomReverse_cell {p : ℕ} (hp : 2 ≤ p) {n : ℕ} {r : ℝ} (h : RandomReverse n p r) (a : ℕ) :
    (rev p a n : ℝ) / (p : ℝ) ^ a ≤ r ∧ r < ((rev p a n : ℝ) + 1) / (p : ℝ) ^ a := by
  have h1 : n < p ^ (a + n) :=
    lt_of_lt_of_le (lt_pow_self' hp n) (Nat.pow_le_pow_right (by omega) (by omega))
  have e := rrloop_unique h (randomReverse_vdc hp h1)
  rw [vdc_split p hp] at e
  have hv := vdc_range hp n (n / p ^ a)
  have p0 : (0 : ℝ) < (p : ℝ) ^ a := by positivity
  rw [e]
  constructor
  · gcongr; linarith [hv.1]
  · gcongr; linarith [hv.2]

theorem rev_mod {p : ℕ} (a n : ℕ) : rev p a (n % p ^ a) = rev p a n := by
  induction a generalizing n with
  | zero => rfl
  | succ a ih =>
    simp only [rev]
    rw [pow_succ', Nat.mod_mul_right_div_self, ih, Nat.mod_mul_right_mod]

theorem rev_surj {p : ℕ} (hp : 2 ≤ p) (a : ℕ) {i : ℕ} (hi : i < p ^ a) : ∃ s, s < p ^ a ∧ rev p a s = i := by
  have f : Function.Injective (fun i : Fin (p ^ a) => (⟨rev p a i, rev_lt hp a i⟩ : Fin (p ^ a))) := by
    intro x y h
    exact Fin.ext (rev_inj hp a x y x.2 y.2 (by simpa using h))
  obtain ⟨n, hn⟩ := (Finite.injective_iff_surjective.mp f) ⟨i, hi⟩
  exact ⟨n, n.2, by simpa using hn⟩

theorem rev_eq_iff {p : ℕ} (hp : 2 ≤ p) (a : ℕ) {i : ℕ} (hi : i < p ^ a) :
    ∃ s, ∀ n, rev p a n = i ↔ n ≡ s [MOD p ^ a] := by
  obtain ⟨s, hs, e⟩ := rev_surj hp a hi
  have hpa : 0 < p ^ a := by positivity
  refine ⟨s, fun n => ?_⟩
  constructor
  · intro h
    have : n % p ^ a = s := rev_inj hp a _ _ (Nat.mod_lt _ hpa) hs (by rw [rev_mod, h, e])
    rw [Nat.ModEq, this, Nat.mod_eq_of_lt hs]
  · intro h
    rw [← rev_mod, h, rev_mod, e]

/-! ## Counting -/

/-- how many indices below `N` lead to the cell `(i, j)` -/
def cellCount (p q a b N i j : ℕ) : ℕ :=
  ((range N).filter fun n => (rev p a n, rev q b (N - 1 - n)) = (i, j)).card

theorem cellCount_close {p q : ℕ} (hp : 2 ≤ p) (hq : 2 ≤ q) (hpq : Nat.Coprime p q) (a b N : ℕ) {i j : ℕ}
    (hi : i < p ^ a) (hj : j < q ^ b) :
    |(cellCount p q a b N i j : ℝ) - (N : ℝ) / ((p : ℝ) ^ a * (q : ℝ) ^ b)| ≤ 1 := by
  obtain ⟨s, hs⟩ := rev_eq_iff hp a hi
  obtain ⟨t, ht⟩ := rev_eq_iff hq b hj
  have hA : 0 < p ^ a := by positivity
  have hB : 0 < q ^ b := by positivity
  have co : Nat.Coprime (p ^ a) (q ^ b) := Nat.Coprime.pow _ _ hpq
  -- the second condition in terms of `n`
  obtain ⟨y, hy⟩ : ∃ y, ∀ n, n < N → (N - 1 - n ≡ t [MOD q ^ b] ↔ n ≡ y [MOD q ^ b]) := by
    refine ⟨N - 1 + (q ^ b - 1) * t, fun n hn => ?_⟩
    have e : N - 1 + (q ^ b - 1) * t + t ≡ N - 1 [MOD q ^ b] := by
      have : N - 1 + (q ^ b - 1) * t + t = N - 1 + q ^ b * t := by
        have : (q ^ b - 1) * t + t = q ^ b * t := by
          rw [← Nat.succ_mul]; congr 1; omega
        omega
      rw [this, Nat.ModEq]; simp
    have e2 : n + (N - 1 - n) = N - 1 := by omega
    constructor
    · intro h
      have h1 : n + t ≡ N - 1 [MOD q ^ b] := by
        have := (Nat.ModEq.add_left n h).symm
        rwa [e2] at this
      exact Nat.ModEq.add_right_cancel' t (h1.trans e.symm)
    · intro h
      have h1 : n + t ≡ n + (N - 1 - n) [MOD q ^ b] := by
        rw [e2]; exact (Nat.ModEq.add_right t h).trans e
      exact (Nat.ModEq.add_left_cancel' n h1).symm
  obtain ⟨x, hx1, hx2⟩ := Nat.chineseRemainder co s y
  have key : ∀ n, n < N → ((rev p a n, rev q b (N - 1 - n)) = (i, j) ↔ n ≡ x [MOD p ^ a * q ^ b]) := by
    intro n hn
    rw [Prod.mk.injEq, hs, ht, hy n hn, ← Nat.modEq_and_modEq_iff_modEq_mul co]
    exact ⟨fun h => ⟨h.1.trans hx1.symm, h.2.trans hx2.symm⟩, fun h => ⟨h.1.trans hx1, h.2.trans hx2⟩⟩
  have hM : 0 < p ^ a * q ^ b := by positivity
  have cnt : cellCount p q a b N i j = N.count (· ≡ x [MOD p ^ a * q ^ b]) := by
    rw [Nat.count_eq_card_filter_range]
    unfold cellCount
    congr 1
    apply filter_congr
    intro n hn
    exact key n (mem_range.1 hn)
  rw [cnt, Nat.count_modEq_card N hM]
  obtain ⟨M, hMM⟩ : ∃ M, M = p ^ a * q ^ b := ⟨_, rfl⟩
  have eM : (p : ℝ) ^ a * (q : ℝ) ^ b = M := by rw [hMM]; push_cast; ring
  rw [eM, ← hMM]
  rw [← hMM] at hM
  have M0 : (0 : ℝ) < M := by exact_mod_cast hM
  have d1 : ((N / M : ℕ) : ℝ) ≤ (N : ℝ) / M := Nat.cast_div_le
  have d2 : (N : ℝ) / M < ((N / M : ℕ) : ℝ) + 1 := by
    rw [div_lt_iff₀ M0]
    have : N < (N / M + 1) * M := by
      have := Nat.lt_div_mul_add (a := N) hM
      rw [add_mul, one_mul]; omega
    exact_mod_cast this
  rw [abs_le]
  split_ifs <;> push_cast <;> constructor <;> linarith

/-! ## Means of products -/

section means
variable {p q : ℕ} (hp : 2 ≤ p) (hq : 2 ≤ q) (hpq : Nat.Coprime p q) {N : ℕ} {u v : ℕ → ℝ}
  (hu : ∀ n, n < N → RandomReverse n p (u n)) (hv : ∀ n, n < N → RandomReverse ((N - 1 - n : ℕ) : ℝ) q (v n))

include hp hq

/-- sums over the indices by cells -/
theorem sum_by_cells (a b : ℕ) (f : ℕ → ℕ → ℝ) :
    ∑ n ∈ range N, f (rev p a n) (rev q b (N - 1 - n)) =
      ∑ i ∈ range (p ^ a), ∑ j ∈ range (q ^ b), cellCount p q a b N i j * f i j := by
  rw [← sum_product']
  rw [← sum_fiberwise_of_maps_to (s := range N) (t := range (p ^ a) ×ˢ range (q ^ b))
    (g := fun n => (rev p a n, rev q b (N - 1 - n)))]
  · apply sum_congr rfl
    rintro ⟨i, j⟩ _
    rw [sum_congr rfl (g := fun _ => f i j)]
    · rw [sum_const, nsmul_eq_mul]; rfl
    · intro n hn
      have := (mem_filter.1 hn).2
      simp only [Prod.mk.injEq] at this
      rw [this.1, this.2]
  · intro n _
    simp only [mem_product, mem_range]
    exact ⟨rev_lt hp a n, rev_lt hq b _⟩

include hpq

/-- sums of products of cell functions with values from 0 to 1 -/
theorem cells_close (a b : ℕ) (g h : ℕ → ℝ) (hg : ∀ i, i < p ^ a → 0 ≤ g i ∧ g i ≤ 1)
    (hh : ∀ j, j < q ^ b → 0 ≤ h j ∧ h j ≤ 1) :
    |∑ n ∈ range N, g (rev p a n) * h (rev q b (N - 1 - n)) -
      (N : ℝ) * ((∑ i ∈ range (p ^ a), g i) / (p : ℝ) ^ a) * ((∑ j ∈ range (q ^ b), h j) / (q : ℝ) ^ b)| ≤
      (p : ℝ) ^ a * (q : ℝ) ^ b := by
  have A0 : (0 : ℝ) < (p : ℝ) ^ a := by positivity
  have B0 : (0 : ℝ) < (q : ℝ) ^ b := by positivity
  rw [sum_by_cells hp hq a b (fun i j => g i * h j)]
  have e : (N : ℝ) * ((∑ i ∈ range (p ^ a), g i) / (p : ℝ) ^ a) * ((∑ j ∈ range (q ^ b), h j) / (q : ℝ) ^ b) =
      ∑ i ∈ range (p ^ a), ∑ j ∈ range (q ^ b), (N : ℝ) / ((p : ℝ) ^ a * (q : ℝ) ^ b) * (g i * h j) := by
    simp_rw [← mul_sum]
    rw [← sum_mul]
    field_simp
  rw [e, ← sum_sub_distrib]
  simp_rw [← sum_sub_distrib, ← sub_mul]
  calc |∑ i ∈ range (p ^ a), ∑ j ∈ range (q ^ b),
        ((cellCount p q a b N i j : ℝ) - (N : ℝ) / ((p : ℝ) ^ a * (q : ℝ) ^ b)) * (g i * h j)|
      ≤ ∑ i ∈ range (p ^ a), ∑ j ∈ range (q ^ b), (1 : ℝ) := by
        refine (abs_sum_le_sum_abs _ _).trans (sum_le_sum fun i hi => ?_)
        refine (abs_sum_le_sum_abs _ _).trans (sum_le_sum fun j hj => ?_)
        obtain ⟨g0, g1⟩ := hg i (mem_range.1 hi)
        obtain ⟨h0, h1⟩ := hh j (mem_range.1 hj)
        rw [abs_mul]
        have c := cellCount_close hp hq hpq a b N (mem_range.1 hi) (mem_range.1 hj)
        have gh : |g i * h j| ≤ 1 := by
          rw [abs_of_nonneg (mul_nonneg g0 h0)]
          exact mul_le_one₀ g1 h0 h1
        exact mul_le_one₀ c (abs_nonneg _) gh
    _ = (p : ℝ) ^ a * (q : ℝ) ^ b := by simp

omit hp hq hpq in
theorem monotone_cells {g : ℝ → ℝ} (hg : Monotone g) (A : ℕ) (hA : 0 < A) :
    (∑ i ∈ range A, g ((i : ℝ) / A)) / A ≤ ∫ x in (0:ℝ)..1, g x ∧
    ∫ x in (0:ℝ)..1, g x ≤ (∑ i ∈ range A, g (((i : ℝ) + 1) / A)) / A ∧
    (∑ i ∈ range A, g (((i : ℝ) + 1) / A)) / A = (∑ i ∈ range A, g ((i : ℝ) / A)) / A + (g 1 - g 0) / A := by
  have A0 : (0 : ℝ) < A := by exact_mod_cast hA
  have hm : Monotone fun x : ℝ => g (x / A) := fun x y h => hg (by gcongr)
  have e : ∫ x in (0:ℝ)..0 + A, g (x / A) = A * ∫ x in (0:ℝ)..1, g x := by
    rw [intervalIntegral.integral_comp_div (fun x => g x) A0.ne']
    simp [A0.ne']
  have h1 := (hm.monotoneOn (Set.Icc (0:ℝ) (0 + A))).sum_le_integral (x₀ := 0) (a := A)
  have h2 := (hm.monotoneOn (Set.Icc (0:ℝ) (0 + A))).integral_le_sum (x₀ := 0) (a := A)
  rw [e] at h1 h2
  simp only [zero_add] at h1 h2
  push_cast at h2
  refine ⟨?_, ?_, ?_⟩
  · rw [div_le_iff₀ A0]; linarith
  · rw [le_div_iff₀ A0]; linarith
  · have t := sum_range_sub (fun i : ℕ => g ((i : ℝ) / A)) A
    rw [sum_sub_distrib] at t
    push_cast at t
    rw [div_self A0.ne', zero_div] at t
    rw [← add_div]
    congr 1
    linarith

include hu hv

/-- **Equidistribution of the pairs**: the mean of a product of monotone functions with values from 0 to 1 is close
to the product of their integrals, for every fineness of the cells. -/
theorem halton_monotone {g h : ℝ → ℝ} (hg : Monotone g) (hg0 : 0 ≤ g 0) (hg1 : g 1 ≤ 1) (hh : Monotone h)
    (hh0 : 0 ≤ h 0) (hh1 : h 1 ≤ 1) (a b : ℕ) :
    |∑ n ∈ range N, g (u n) * h (v n) - N * ((∫ x in (0:ℝ)..1, g x) * ∫ x in (0:ℝ)..1, h x)| ≤
      N * (1 / (p : ℝ) ^ a + 1 / (q : ℝ) ^ b) + (p : ℝ) ^ a * (q : ℝ) ^ b := by
  have hA : 0 < p ^ a := by positivity
  have hB : 0 < q ^ b := by positivity
  obtain ⟨A, eA⟩ : ∃ A, A = p ^ a := ⟨_, rfl⟩
  obtain ⟨B, eB⟩ : ∃ B, B = q ^ b := ⟨_, rfl⟩
  have cA : (p : ℝ) ^ a = A := by rw [eA]; push_cast; ring
  have cB : (q : ℝ) ^ b = B := by rw [eB]; push_cast; ring
  have A0 : (0 : ℝ) < A := by rw [eA]; exact_mod_cast hA
  have B0 : (0 : ℝ) < B := by rw [eB]; exact_mod_cast hB
  obtain ⟨gl, gu, gd⟩ := monotone_cells hg A (eA ▸ hA)
  obtain ⟨hl, hu', hd⟩ := monotone_cells hh B (eB ▸ hB)
  have unit : ∀ (f : ℝ → ℝ), Monotone f → 0 ≤ f 0 → f 1 ≤ 1 → ∀ x, 0 ≤ x → x ≤ 1 → 0 ≤ f x ∧ f x ≤ 1 :=
    fun f hf f0 f1 x x0 x1 => ⟨f0.trans (hf x0), (hf x1).trans f1⟩
  have inA : ∀ i : ℕ, i < A → 0 ≤ (i : ℝ) / A ∧ ((i : ℝ) + 1) / A ≤ 1 := by
    intro i hi
    have : (i : ℝ) + 1 ≤ A := by exact_mod_cast hi
    exact ⟨by positivity, (div_le_one A0).2 this⟩
  have inB : ∀ i : ℕ, i < B → 0 ≤ (i : ℝ) / B ∧ ((i : ℝ) + 1) / B ≤ 1 := by
    intro i hi
    have : (i : ℝ) + 1 ≤ B := by exact_mod_cast hi
    exact ⟨by positivity, (div_le_one B0).2 this⟩
  have gL : ∀ i, i < A → 0 ≤ g ((i : ℝ) / A) ∧ g ((i : ℝ) / A) ≤ 1 := fun i hi =>
    unit g hg hg0 hg1 _ (inA i hi).1 (le_trans (by gcongr; linarith) (inA i hi).2)
  have gU : ∀ i, i < A → 0 ≤ g (((i : ℝ) + 1) / A) ∧ g (((i : ℝ) + 1) / A) ≤ 1 := fun i hi =>
    unit g hg hg0 hg1 _ ((inA i hi).1.trans (by gcongr; linarith)) (inA i hi).2
  have hL : ∀ i, i < B → 0 ≤ h ((i : ℝ) / B) ∧ h ((i : ℝ) / B) ≤ 1 := fun i hi =>
    unit h hh hh0 hh1 _ (inB i hi).1 (le_trans (by gcongr; linarith) (inB i hi).2)
  have hU : ∀ i, i < B → 0 ≤ h (((i : ℝ) + 1) / B) ∧ h (((i : ℝ) + 1) / B) ≤ 1 := fun i hi =>
    unit h hh hh0 hh1 _ ((inB i hi).1.trans (by gcongr; linarith)) (inB i hi).2
  have cl := cells_close hp hq hpq (N := N) a b (fun i => g ((i : ℝ) / A)) (fun j => h ((j : ℝ) / B))
    (fun i hi => gL i (eA ▸ hi)) (fun j hj => hL j (eB ▸ hj))
  have cu := cells_close hp hq hpq (N := N) a b (fun i => g (((i : ℝ) + 1) / A)) (fun j => h (((j : ℝ) + 1) / B))
    (fun i hi => gU i (eA ▸ hi)) (fun j hj => hU j (eB ▸ hj))
  rw [cA, cB, ← eA, ← eB] at cl cu
  have cell : ∀ n ∈ range N, g ((rev p a n : ℝ) / A) * h ((rev q b (N - 1 - n) : ℝ) / B) ≤ g (u n) * h (v n) ∧
      g (u n) * h (v n) ≤ g (((rev p a n : ℝ) + 1) / A) * h (((rev q b (N - 1 - n) : ℝ) + 1) / B) := by
    intro n hn
    have hn := mem_range.1 hn
    have c1 := randomReverse_cell hp (hu n hn) a
    have c2 := randomReverse_cell hq (hv n hn) b
    rw [cA] at c1
    rw [cB] at c2
    have g0 := (gL _ (eA ▸ rev_lt hp a n)).1
    have h0 := (hL _ (eB ▸ rev_lt hq b (N - 1 - n))).1
    have g1 := hg c1.1
    have g2 := hg c1.2.le
    have h1 := hh c2.1
    have h2 := hh c2.2.le
    exact ⟨mul_le_mul g1 h1 h0 (g0.trans g1), mul_le_mul g2 h2 (h0.trans h1) ((g0.trans g1).trans g2)⟩
  have lo := sum_le_sum fun n hn => (cell n hn).1
  have up := sum_le_sum fun n hn => (cell n hn).2
  obtain ⟨PL, ePL⟩ : ∃ PL, PL = (∑ i ∈ range A, g ((i : ℝ) / A)) / A := ⟨_, rfl⟩
  obtain ⟨PU, ePU⟩ : ∃ PU, PU = (∑ i ∈ range A, g (((i : ℝ) + 1) / A)) / A := ⟨_, rfl⟩
  obtain ⟨QL, eQL⟩ : ∃ QL, QL = (∑ i ∈ range B, h ((i : ℝ) / B)) / B := ⟨_, rfl⟩
  obtain ⟨QU, eQU⟩ : ∃ QU, QU = (∑ i ∈ range B, h (((i : ℝ) + 1) / B)) / B := ⟨_, rfl⟩
  rw [← ePL, ← ePU] at gd
  rw [← eQL, ← eQU] at hd
  rw [← ePL] at gl cl
  rw [← ePU] at gu cu
  rw [← eQL] at hl cl
  rw [← eQU] at hu' cu
  rw [cA, cB]
  obtain ⟨I, eI⟩ : ∃ I, I = ∫ x in (0:ℝ)..1, g x := ⟨_, rfl⟩
  obtain ⟨J, eJ⟩ : ∃ J, J = ∫ x in (0:ℝ)..1, h x := ⟨_, rfl⟩
  rw [← eI] at gl gu ⊢
  rw [← eJ] at hl hu' ⊢
  have PL0 : 0 ≤ PL := by
    rw [ePL]; exact div_nonneg (sum_nonneg fun i hi => (gL i (mem_range.1 hi)).1) A0.le
  have QL0 : 0 ≤ QL := by
    rw [eQL]; exact div_nonneg (sum_nonneg fun i hi => (hL i (mem_range.1 hi)).1) B0.le
  have PU1 : PU ≤ 1 := by
    rw [ePU, div_le_one A0]
    calc ∑ i ∈ range A, g (((i : ℝ) + 1) / A) ≤ ∑ i ∈ range A, (1:ℝ) := sum_le_sum fun i hi => (gU i (mem_range.1 hi)).2
      _ = A := by simp
  have QU1 : QU ≤ 1 := by
    rw [eQU, div_le_one B0]
    calc ∑ i ∈ range B, h (((i : ℝ) + 1) / B) ≤ ∑ i ∈ range B, (1:ℝ) := sum_le_sum fun i hi => (hU i (mem_range.1 hi)).2
      _ = B := by simp
  have gv : (g 1 - g 0) / A ≤ 1 / A := by gcongr; linarith
  have hv' : (h 1 - h 0) / B ≤ 1 / B := by gcongr; linarith
  have N0 : (0 : ℝ) ≤ N := by positivity
  have d1 : PU * QU - I * J ≤ 1 / A + 1 / B := by nlinarith
  have d2 : I * J - PL * QL ≤ 1 / A + 1 / B := by nlinarith
  have m1 := mul_le_mul_of_nonneg_left d1 N0
  have m2 := mul_le_mul_of_nonneg_left d2 N0
  have cl := abs_le.1 cl
  have cu := abs_le.1 cu
  rw [abs_le]
  constructor <;> linarith

end means

end Verif
