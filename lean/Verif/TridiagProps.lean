import Verif.Tridiag
import Mathlib.Tactic.Linarith
import Mathlib.Tactic.FieldSimp
import Mathlib.Tactic.Ring

/-!
# C40: the tridiagonal solver
-/

namespace Verif

theorem ldN_nat {n : ℕ} {f : ℕ → ℝ} {j : ℕ} (h : j < n) : ldN n f (j : ℤ) = some (f j) := by
  unfold ldN; rw [if_pos (by omega)]; simp

theorem stN_nat {n : ℕ} {f : ℕ → ℝ} {j : ℕ} (h : j < n) (v : ℝ) :
    stN n f (j : ℤ) v = some (Function.update f j v) := by
  unfold stN; rw [if_pos (by omega)]; simp

/-- elimination at `j+1`, in terms of values -/
theorem triElim_nat {n : ℕ} {a b : ℕ → ℝ} {s : (ℕ → ℝ) × (ℕ → ℝ)} {j : ℕ} (h : j + 1 < n) :
    triElim n a b s ((j + 1 : ℕ) : ℤ) =
      if b (j + 1) - s.1 j * a (j + 1) = 0 then none
      else some (Function.update s.1 (j + 1) (s.1 (j + 1) / (b (j + 1) - s.1 j * a (j + 1))),
        Function.update s.2 (j + 1)
          ((s.2 (j + 1) - s.2 j * a (j + 1)) / (b (j + 1) - s.1 j * a (j + 1)))) := by
  have e : ((j + 1 : ℕ) : ℤ) - 1 = (j : ℤ) := by push_cast; ring
  unfold triElim
  rw [e, ldN_nat h, ldN_nat (show j < n by omega), ldN_nat h, ldN_nat h, ldN_nat h,
    ldN_nat (show j < n by omega)]
  simp only [divN, Option.bind_eq_bind, Option.bind_some]
  split_ifs with h0
  · rfl
  · simp only [stN_nat h, Option.bind_some]
    rfl

theorem triBack_nat {n : ℕ} {c d x : ℕ → ℝ} {j : ℕ} (h : j + 1 < n) :
    triBack n c d x (j : ℤ) = some (Function.update x j (d j - c j * x (j + 1))) := by
  have e : (j : ℤ) + 1 = ((j + 1 : ℕ) : ℤ) := by push_cast; ring
  unfold triBack
  rw [e, ldN_nat (show j < n by omega), ldN_nat (show j < n by omega), ldN_nat h]
  simp [stN_nat (show j < n by omega)]

/-- eliminated coefficients `c'` and `d'` with the pivots -/
structure TriElimd (n : ℕ) (a b c d c' d' : ℕ → ℝ) : Prop where
  b0 : b 0 ≠ 0
  c0 : c' 0 = c 0 / b 0
  d0 : d' 0 = d 0 / b 0
  piv : ∀ j, j + 1 < n → b (j + 1) - c' j * a (j + 1) ≠ 0
  cs : ∀ j, j + 1 < n → c' (j + 1) = c (j + 1) / (b (j + 1) - c' j * a (j + 1))
  ds : ∀ j, j + 1 < n → d' (j + 1) = (d (j + 1) - d' j * a (j + 1)) / (b (j + 1) - c' j * a (j + 1))

theorem elim_fold {n : ℕ} {a b c d : ℕ → ℝ} (m : ℕ) :
    ∀ (k : ℕ) (s s' : (ℕ → ℝ) × (ℕ → ℝ)), k + m < n → TriElimd (k + 1) a b c d s.1 s.2 →
    (∀ j, k < j → s.1 j = c j ∧ s.2 j = d j) →
    ((List.range' (k + 1) m).map fun j : ℕ => (j : ℤ)).foldlM (triElim n a b) s = some s' →
    TriElimd (k + m + 1) a b c d s'.1 s'.2 := by
  induction m with
  | zero =>
    intro k s s' hk he _ h
    simp at h
    subst h
    exact he
  | succ m ih =>
    intro k s s' hk he hu h
    rw [List.range'_succ, List.map_cons, List.foldlM_cons, triElim_nat (by omega)] at h
    split_ifs at h with h0
    · simp at h
    · simp only [Option.bind_eq_bind, Option.bind_some] at h
      have := ih (k + 1) _ s' (by omega) ?_ ?_ h
      · rw [show k + (m + 1) + 1 = k + 1 + m + 1 by omega]; exact this
      · have ne : ∀ j, j < k + 1 → j ≠ k + 1 := fun j hj => by omega
        obtain ⟨h1, h2⟩ := hu (k + 1) (by omega)
        refine ⟨he.b0, ?_, ?_, ?_, ?_, ?_⟩
        · dsimp only; rw [Function.update_of_ne (by omega)]; exact he.c0
        · dsimp only; rw [Function.update_of_ne (by omega)]; exact he.d0
        · intro j hj
          dsimp only
          rw [Function.update_of_ne (ne j (by omega))]
          rcases Nat.lt_or_ge j k with hjk | hjk
          · exact he.piv j (by omega)
          · obtain rfl : j = k := by omega
            exact h0
        · intro j hj
          dsimp only
          rw [Function.update_of_ne (ne j (by omega))]
          rcases Nat.lt_or_ge j k with hjk | hjk
          · rw [Function.update_of_ne (ne _ (by omega))]; exact he.cs j (by omega)
          · obtain rfl : j = k := by omega
            rw [Function.update_self, h1]
        · intro j hj
          dsimp only
          rw [Function.update_of_ne (ne j (by omega)), Function.update_of_ne (ne j (by omega))]
          rcases Nat.lt_or_ge j k with hjk | hjk
          · rw [Function.update_of_ne (ne _ (by omega))]; exact he.ds j (by omega)
          · obtain rfl : j = k := by omega
            rw [Function.update_self, h2]
      · intro j hj
        dsimp only
        rw [Function.update_of_ne (by omega), Function.update_of_ne (by omega)]
        exact hu j (by omega)

theorem back_fold {n : ℕ} {c d : ℕ → ℝ} (m : ℕ) :
    ∀ x : ℕ → ℝ, m < n → ∃ x', ((List.range m).reverse.map fun j : ℕ => (j : ℤ)).foldlM
      (triBack n c d) x = some x' ∧ (∀ j, m ≤ j → x' j = x j) ∧
      ∀ j, j < m → x' j = d j - c j * x' (j + 1) := by
  induction m with
  | zero => intro x _; exact ⟨x, by simp, fun _ _ => rfl, fun j h => by omega⟩
  | succ m ih =>
    intro x hm
    obtain ⟨x', h1, h2, h3⟩ := ih (Function.update x m (d m - c m * x (m + 1))) (by omega)
    refine ⟨x', ?_, ?_, ?_⟩
    · rw [List.range_succ, List.reverse_append, List.map_append]
      simp only [List.reverse_cons, List.reverse_nil, List.nil_append, List.map_cons, List.map_nil,
        List.cons_append, List.foldlM_cons]
      rw [triBack_nat hm]
      exact h1
    · intro j hj
      rw [h2 j (by omega), Function.update_of_ne (by omega)]
    · intro j hj
      rcases Nat.lt_or_ge j m with h | h
      · exact h3 j h
      · obtain rfl : j = m := by omega
        rw [h2 j le_rfl, Function.update_self, h2 (j + 1) (by omega), Function.update_of_ne (by omega)]

/-- what a successful call computes -/
theorem solve_spec {n : ℕ} {a b c d x x' : ℕ → ℝ} (h : tridiagonalSolve n a b c d x = some x') :
    ∃ c' d', 0 < n ∧ TriElimd n a b c d c' d' ∧ (∀ j, n ≤ j → x' j = x j) ∧
      x' (n - 1) = d' (n - 1) ∧ ∀ j, j + 1 < n → x' j = d' j - c' j * x' (j + 1) := by
  rcases n with _ | n
  · simp [tridiagonalSolve, ldN] at h
  unfold tridiagonalSolve at h
  have e0 : (0 : ℤ) = ((0 : ℕ) : ℤ) := rfl
  have el : ((n + 1 : ℕ) : ℤ) - 1 = (n : ℤ) := by push_cast; ring
  rw [el, e0] at h
  simp only [ldN_nat (show 0 < n + 1 by omega), stN_nat (show 0 < n + 1 by omega),
    ldN_nat (show n < n + 1 by omega), stN_nat (show n < n + 1 by omega), divN,
    Option.bind_eq_bind, Option.bind_some] at h
  by_cases hb : b 0 = 0
  · simp [hb] at h
  simp only [hb, if_false, Option.bind_some, Nat.add_sub_cancel] at h
  rw [Option.bind_eq_some_iff] at h
  obtain ⟨s, hs, h⟩ := h
  have key := elim_fold (c := c) (d := d) n 0 _ s (show 0 + n < n + 1 by omega) ?_ ?_ (by simpa using hs)
  · obtain ⟨y, y1, y2, y3⟩ := back_fold (c := s.1) (d := s.2) n
      (Function.update x n (s.2 n)) (Nat.lt_succ_self n)
    rw [y1] at h
    cases h
    refine ⟨s.1, s.2, by omega, by simpa using key, ?_, ?_, ?_⟩
    · intro j hj; rw [y2 j (by omega), Function.update_of_ne (show j ≠ n by omega)]
    · simp [y2 n le_rfl]
    · intro j hj; exact y3 j (by omega)
  · exact ⟨hb, by simp, by simp, fun j hj => by omega, fun j hj => by omega, fun j hj => by omega⟩
  · intro j hj
    constructor <;> · dsimp only; rw [Function.update_of_ne (show j ≠ 0 by omega)]

/-- Row `i` of the tridiagonal system of `n` equations with sub-, main and super-diagonal `a`, `b`, `c`,
applied to `x`: `a[i] x[i-1] + b[i] x[i] + c[i] x[i+1]`, without the terms that are outside the matrix. -/
def triRow (n : ℕ) (a b c x : ℕ → ℝ) (i : ℕ) : ℝ :=
  (if 0 < i then a i * x (i - 1) else 0) + b i * x i + if i + 1 < n then c i * x (i + 1) else 0

/-- C40: if no division by zero occurs, the result satisfies every equation of the system given on entry, and
nothing beyond the `n` elements of `x` is touched. -/
theorem C40_solves (n : ℕ) (a b c d x x' : ℕ → ℝ) (h : tridiagonalSolve n a b c d x = some x') :
    (∀ i < n, triRow n a b c x' i = d i) ∧ ∀ i, n ≤ i → x' i = x i := by
  obtain ⟨c', d', hn, E, hx, hl, hb⟩ := solve_spec h
  refine ⟨?_, hx⟩
  -- `x'_j + c'_j x'_{j+1} = d'_j`
  have row : ∀ j, j < n → x' j = d' j - if j + 1 < n then c' j * x' (j + 1) else 0 := by
    intro j hj
    split_ifs with h1
    · exact hb j h1
    · obtain rfl : j = n - 1 := by omega
      rw [hl, sub_zero]
  intro i hi
  unfold triRow
  rcases i with _ | i
  · have r := row 0 hi
    have hb0 := E.b0
    simp only [lt_irrefl, if_false, zero_add]
    split_ifs at r ⊢ with h1
    · rw [E.d0, E.c0] at r
      rw [r]; simp only [zero_add]; field_simp; ring
    · rw [E.d0] at r
      rw [r]; field_simp; ring
  · have r := row (i + 1) hi
    have rp := hb i hi
    have hp := E.piv i hi
    have hc := E.cs i hi
    have hd := E.ds i hi
    have hd' : d' (i + 1) * (b (i + 1) - c' i * a (i + 1)) = d (i + 1) - d' i * a (i + 1) := by
      rw [hd, div_mul_cancel₀ _ hp]
    have hc' : c' (i + 1) * (b (i + 1) - c' i * a (i + 1)) = c (i + 1) := by
      rw [hc, div_mul_cancel₀ _ hp]
    simp only [Nat.succ_pos, if_true, Nat.add_sub_cancel]
    rw [rp]
    split_ifs at r ⊢ with h1
    · have : x' (i + 1) * (b (i + 1) - c' i * a (i + 1)) =
          d' (i + 1) * (b (i + 1) - c' i * a (i + 1))
            - c' (i + 1) * (b (i + 1) - c' i * a (i + 1)) * x' (i + 1 + 1) := by
        conv_lhs => rw [r]
        ring
      rw [hd', hc'] at this
      linarith
    · have : x' (i + 1) * (b (i + 1) - c' i * a (i + 1)) =
          d' (i + 1) * (b (i + 1) - c' i * a (i + 1)) := by
        conv_lhs => rw [r]
        ring
      rw [hd'] at this
      linarith

theorem elim_dominant {n : ℕ} {a b c : ℕ → ℝ}
    (hdom : ∀ i < n, (if 0 < i then |a i| else 0) + (if i + 1 < n then |c i| else 0) < |b i|) (m : ℕ) :
    ∀ (k : ℕ) (s : (ℕ → ℝ) × (ℕ → ℝ)), k + m + 1 = n → (∀ j, k < j → s.1 j = c j) →
    (k + 1 < n → |s.1 k| < 1) →
    ∃ s', ((List.range' (k + 1) m).map fun j : ℕ => (j : ℤ)).foldlM (triElim n a b) s = some s' := by
  induction m with
  | zero => intro k s _ _ _; exact ⟨s, by simp⟩
  | succ m ih =>
    intro k s hk hu hc
    have hd := hdom (k + 1) (by omega)
    rw [if_pos (by omega)] at hd
    have hck := hc (by omega)
    have habs : |s.1 k * a (k + 1)| ≤ |a (k + 1)| := by
      rw [abs_mul]; nlinarith [abs_nonneg (a (k + 1)), abs_nonneg (s.1 k)]
    have hge : |b (k + 1)| - |a (k + 1)| ≤ |b (k + 1) - s.1 k * a (k + 1)| := by
      have := abs_sub_abs_le_abs_sub (b (k + 1)) (s.1 k * a (k + 1))
      linarith
    have hpos : 0 < |b (k + 1) - s.1 k * a (k + 1)| := by
      have : 0 ≤ (if k + 1 + 1 < n then |c (k + 1)| else 0) := by split_ifs <;> positivity
      linarith
    rw [List.range'_succ, List.map_cons, List.foldlM_cons, triElim_nat (by omega),
      if_neg (abs_pos.1 hpos)]
    simp only [Option.bind_eq_bind, Option.bind_some]
    apply ih (k + 1) _ (by omega)
    · intro j hj
      dsimp only
      rw [Function.update_of_ne (by omega)]
      exact hu j (by omega)
    · intro hlt
      dsimp only
      rw [Function.update_self, hu (k + 1) (by omega), abs_div, div_lt_one hpos]
      rw [if_pos hlt] at hd
      linarith

/-- C40: for a strictly diagonally dominant matrix of any size at least one no pivot vanishes, so the call
succeeds. -/
theorem C40_dominant (n : ℕ) (hn : 0 < n) (a b c d x : ℕ → ℝ)
    (hdom : ∀ i < n, (if 0 < i then |a i| else 0) + (if i + 1 < n then |c i| else 0) < |b i|) :
    ∃ x', tridiagonalSolve n a b c d x = some x' ∧ ∀ i < n, triRow n a b c x' i = d i := by
  suffices h : ∃ x', tridiagonalSolve n a b c d x = some x' by
    obtain ⟨x', h⟩ := h
    exact ⟨x', h, (C40_solves n a b c d x x' h).1⟩
  obtain ⟨n, rfl⟩ : ∃ m, n = m + 1 := ⟨n - 1, by omega⟩
  have hd0 := hdom 0 (by omega)
  have hb : b 0 ≠ 0 := by
    rw [← abs_pos]
    have : 0 ≤ (if 0 + 1 < n + 1 then |c 0| else 0) := by split_ifs <;> positivity
    simp only [lt_irrefl, if_false] at hd0
    linarith
  unfold tridiagonalSolve
  have e0 : (0 : ℤ) = ((0 : ℕ) : ℤ) := rfl
  have el : ((n + 1 : ℕ) : ℤ) - 1 = (n : ℤ) := by push_cast; ring
  rw [el, e0]
  simp only [ldN_nat (show 0 < n + 1 by omega), stN_nat (show 0 < n + 1 by omega),
    ldN_nat (show n < n + 1 by omega), stN_nat (show n < n + 1 by omega), divN,
    Option.bind_eq_bind, Option.bind_some, hb, if_false, Nat.add_sub_cancel]
  obtain ⟨s, hs⟩ := elim_dominant hdom n 0
    (Function.update c 0 (c 0 / b 0), Function.update d 0 (d 0 / b 0)) (by omega)
    (fun j hj => by dsimp only; rw [Function.update_of_ne (by omega)])
    (fun h1 => by
      dsimp only
      rw [Function.update_self, abs_div, div_lt_one (abs_pos.2 hb)]
      simp only [lt_irrefl, if_false] at hd0
      rw [if_pos h1] at hd0
      linarith)
  simp only [zero_add] at hs
  rw [hs]
  obtain ⟨y, y1, -, -⟩ := back_fold (c := s.1) (d := s.2) n (Function.update x n (s.2 n)) (Nat.lt_succ_self n)
  exact ⟨y, y1⟩

/-- The hypothesis of `C40_dominant` holds for the second-difference matrix with a positive shift. -/
example (n : ℕ) : ∀ i < n, (if 0 < i then |(fun _ => (-1 : ℝ)) i| else 0)
    + (if i + 1 < n then |(fun _ => (-1 : ℝ)) i| else 0) < |(fun _ => (3 : ℝ)) i| := by
  intro i _
  norm_num
  split_ifs <;> norm_num

/-- C40: the comment in the code ("division by zero would imply a singular matrix") is wrong.  The system
`x1 = d0, x0 = d1` has exactly one solution for every right-hand side, but the solver divides by zero. -/
theorem C40_singular_comment_violated :
    ∃ a b c : ℕ → ℝ, (∀ d : ℕ → ℝ, ∃! p : ℝ × ℝ,
        ∀ i < 2, triRow 2 a b c (fun j => if j = 0 then p.1 else p.2) i = d i) ∧
      ∀ d x, tridiagonalSolve 2 a b c d x = none := by
  refine ⟨fun _ => 1, fun _ => 0, fun _ => 1, ?_, ?_⟩
  · intro d
    refine ⟨(d 1, d 0), ?_, ?_⟩
    · intro i hi
      have : i = 0 ∨ i = 1 := by omega
      rcases this with rfl | rfl <;> simp [triRow]
    · rintro ⟨p, q⟩ h
      have h0 := h 0 (by omega)
      have h1 := h 1 (by omega)
      simp [triRow] at h0 h1
      rw [← h0, ← h1]
  · intro d x
    simp [tridiagonalSolve, ldN, divN]

end Verif
