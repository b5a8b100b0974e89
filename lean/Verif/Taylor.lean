import Mathlib.Analysis.Calculus.ContDiff.Basic
import Mathlib.Analysis.Calculus.ContDiff.Operations
import Mathlib.Analysis.Calculus.MeanValue
import Mathlib.Analysis.Calculus.Deriv.Pow
import Mathlib.Analysis.Normed.Group.Bounded

/-!
# Errors of central differences and averages along a direction (for C96)
-/

namespace Verif

open Set

/-- points of time, radius and height -/
abbrev E3 := ℝ × ℝ × ℝ

/-- derivative along `v` -/
noncomputable def dirD (u : E3 → ℝ) (v : E3) : E3 → ℝ := fun p => fderiv ℝ u p v

theorem dirD_contDiff {n : ℕ} {u : E3 → ℝ} (h : ContDiff ℝ ((n + 1 : ℕ) : WithTop ℕ∞) u) (v : E3) :
    ContDiff ℝ (n : WithTop ℕ∞) (dirD u v) := by
  have h1 : ContDiff ℝ (n : WithTop ℕ∞) (fderiv ℝ u) := h.fderiv_right (by norm_cast)
  exact h1.clm_apply contDiff_const

theorem line_deriv {n : ℕ} {u : E3 → ℝ} (h : ContDiff ℝ ((n + 1 : ℕ) : WithTop ℕ∞) u) (p v : E3) (s : ℝ) :
    HasDerivAt (fun s : ℝ => u (p + s • v)) (dirD u v (p + s • v)) s := by
  have hd : DifferentiableAt ℝ u (p + s • v) :=
    (h.differentiable (by norm_cast)).differentiableAt
  have h2 : HasDerivAt (fun s : ℝ => p + s • v) v s := by
    simpa using ((hasDerivAt_id s).smul_const v).const_add p
  exact hd.hasFDerivAt.comp_hasDerivAt s h2

theorem line_deriv_neg {n : ℕ} {u : E3 → ℝ} (h : ContDiff ℝ ((n + 1 : ℕ) : WithTop ℕ∞) u) (p v : E3) (s : ℝ) :
    HasDerivAt (fun s : ℝ => u (p - s • v)) (-dirD u v (p - s • v)) s := by
  have hd : DifferentiableAt ℝ u (p - s • v) :=
    (h.differentiable (by norm_cast)).differentiableAt
  have h2 : HasDerivAt (fun s : ℝ => p - s • v) (-v) s := by
    simpa using ((hasDerivAt_id s).smul_const v).const_sub p
  have := hd.hasFDerivAt.comp_hasDerivAt s h2
  rwa [map_neg] at this

/-- a function that starts at zero and whose slope is at most `C s^n` -/
theorem grow {f f' : ℝ → ℝ} {C h : ℝ} (n : ℕ) (hd : ∀ s, HasDerivAt f (f' s) s) (h0 : f 0 = 0)
    (hb : ∀ s, 0 ≤ s → s ≤ h → |f' s| ≤ C * s ^ n) : ∀ s, 0 ≤ s → s ≤ h → |f s| ≤ C / (n + 1) * s ^ (n + 1) := by
  intro s hs hs'
  have hB : ∀ x : ℝ, HasDerivAt (fun x => C / (n + 1) * x ^ (n + 1)) (C * x ^ n) x := by
    intro x
    have := (hasDerivAt_pow (n + 1) x).const_mul (C / (n + 1))
    refine this.congr_deriv ?_
    have h1 : (n : ℝ) + 1 ≠ 0 := by positivity
    rw [Nat.add_sub_cancel]
    push_cast
    field_simp
  have := image_norm_le_of_norm_deriv_right_le_deriv_boundary (f := f) (f' := f') (a := 0) (b := h)
    (fun x _ => (hd x).continuousAt.continuousWithinAt) (fun x _ => (hd x).hasDerivWithinAt)
    (B := fun x => C / (n + 1) * x ^ (n + 1)) (B' := fun x => C * x ^ n) (by simp [h0])
    hB
    (fun x hx => by rw [Real.norm_eq_abs]; exact hb x hx.1 hx.2.le)
    (x := s) ⟨hs, hs'⟩
  rwa [Real.norm_eq_abs] at this

/-- central difference -/
theorem central {u : E3 → ℝ} (hu : ContDiff ℝ (3 : ℕ) u) (p v : E3) {M h : ℝ} (hh : 0 ≤ h)
    (hb : ∀ s, |s| ≤ h → |dirD (dirD (dirD u v) v) v (p + s • v)| ≤ M) :
    |u (p + h • v) - u (p - h • v) - 2 * h * dirD u v p| ≤ M / 3 * h ^ 3 := by
  have h1 : ContDiff ℝ (2 : ℕ) (dirD u v) := dirD_contDiff hu v
  have h2 : ContDiff ℝ (1 : ℕ) (dirD (dirD u v) v) := dirD_contDiff h1 v
  have b2 : ∀ s, 0 ≤ s → s ≤ h → |dirD (dirD u v) v (p + s • v) - dirD (dirD u v) v (p - s • v)| ≤
      2 * M / (0 + 1) * s ^ (0 + 1) := by
    have := grow (C := 2 * M) (h := h) 0 (fun s => (line_deriv h2 p v s).sub (line_deriv_neg h2 p v s)) (by simp)
      (fun s hs hs' => by
        have a1 := hb s (by rwa [abs_of_nonneg hs])
        have a2 := hb (-s) (by rwa [abs_neg, abs_of_nonneg hs])
        rw [neg_smul, ← sub_eq_add_neg] at a2
        rw [sub_neg_eq_add, pow_zero, mul_one]
        have := abs_add_le (dirD (dirD (dirD u v) v) v (p + s • v)) (dirD (dirD (dirD u v) v) v (p - s • v))
        linarith)
    simpa using this
  have b1 : ∀ s, 0 ≤ s → s ≤ h → |dirD u v (p + s • v) + dirD u v (p - s • v) - 2 * dirD u v p| ≤
      2 * M / (1 + 1) * s ^ (1 + 1) := by
    have := grow (C := 2 * M) (h := h) 1
      (fun s => ((line_deriv h1 p v s).add (line_deriv_neg h1 p v s)).sub_const (2 * dirD u v p)) (by simp; ring)
      (fun s hs hs' => by
        have := b2 s hs hs'
        rw [← sub_eq_add_neg]; simpa using this)
    simpa using this
  have b0 := grow (C := M) (h := h) 2 (f := fun s => u (p + s • v) - u (p - s • v) - s * (2 * dirD u v p))
      (f' := fun s => dirD u v (p + s • v) + dirD u v (p - s • v) - 2 * dirD u v p)
      (fun s => by
        have := ((line_deriv hu p v s).sub (line_deriv_neg hu p v s)).sub
          ((hasDerivAt_id s).mul_const (2 * dirD u v p))
        refine this.congr_deriv ?_; simp) (by simp)
      (fun s hs hs' => by
        have := b1 s hs hs'
        have e : 2 * M / (1 + 1) = M := by ring
        rwa [e] at this)
  have := b0 h hh le_rfl
  norm_num at this ⊢
  rwa [show 2 * h * dirD u v p = h * (2 * dirD u v p) by ring]

/-- average of two neighbours -/
theorem average {u : E3 → ℝ} (hu : ContDiff ℝ (2 : ℕ) u) (p v : E3) {M h : ℝ} (hh : 0 ≤ h)
    (hb : ∀ s, |s| ≤ h → |dirD (dirD u v) v (p + s • v)| ≤ M) :
    |u (p + h • v) + u (p - h • v) - 2 * u p| ≤ M * h ^ 2 := by
  have h1 : ContDiff ℝ (1 : ℕ) (dirD u v) := dirD_contDiff hu v
  have b1 : ∀ s, 0 ≤ s → s ≤ h → |dirD u v (p + s • v) - dirD u v (p - s • v)| ≤ 2 * M / (0 + 1) * s ^ (0 + 1) := by
    have := grow (C := 2 * M) (h := h) 0 (fun s => (line_deriv h1 p v s).sub (line_deriv_neg h1 p v s)) (by simp)
      (fun s hs hs' => by
        have a1 := hb s (by rwa [abs_of_nonneg hs])
        have a2 := hb (-s) (by rwa [abs_neg, abs_of_nonneg hs])
        rw [neg_smul, ← sub_eq_add_neg] at a2
        rw [sub_neg_eq_add, pow_zero, mul_one]
        have := abs_add_le (dirD (dirD u v) v (p + s • v)) (dirD (dirD u v) v (p - s • v))
        linarith)
    simpa using this
  have b0 := grow (C := 2 * M) (h := h) 1
      (fun s => ((line_deriv hu p v s).add (line_deriv_neg hu p v s)).sub_const (2 * u p)) (by simp; ring)
      (fun s hs hs' => by
        have := b1 s hs hs'
        rw [← sub_eq_add_neg]; simpa using this)
  have := b0 h hh le_rfl
  have e : 2 * M / ((1 : ℕ) + 1) = M := by push_cast; ring
  rw [e] at this
  simpa using this

/-- difference of two neighbours -/
theorem difference {u : E3 → ℝ} (hu : ContDiff ℝ (1 : ℕ) u) (p v : E3) {M h : ℝ} (hh : 0 ≤ h)
    (hb : ∀ s, |s| ≤ h → |dirD u v (p + s • v)| ≤ M) :
    |u (p + h • v) - u (p - h • v)| ≤ 2 * M * h := by
  have b0 := grow (C := 2 * M) (h := h) 0 (fun s => (line_deriv hu p v s).sub (line_deriv_neg hu p v s)) (by simp)
      (fun s hs hs' => by
        have a1 := hb s (by rwa [abs_of_nonneg hs])
        have a2 := hb (-s) (by rwa [abs_neg, abs_of_nonneg hs])
        rw [neg_smul, ← sub_eq_add_neg] at a2
        rw [sub_neg_eq_add, pow_zero, mul_one]
        have := abs_add_le (dirD u v (p + s • v)) (dirD u v (p - s • v))
        linarith)
  have := b0 h hh le_rfl
  simpa using this

/-- the second derivative of an odd function vanishes at its centre -/
theorem odd_second {u : E3 → ℝ} (hu : ContDiff ℝ (2 : ℕ) u) (p v : E3)
    (ho : ∀ s : ℝ, u (p - s • v) = -u (p + s • v)) : dirD (dirD u v) v p = 0 := by
  have h1 : ContDiff ℝ (1 : ℕ) (dirD u v) := dirD_contDiff hu v
  have e1 : ∀ s : ℝ, dirD u v (p + s • v) - dirD u v (p - s • v) = 0 := by
    intro s
    have a := (line_deriv hu p v s).add (line_deriv_neg hu p v s)
    have z : ((fun s : ℝ => u (p + s • v)) + fun s : ℝ => u (p - s • v)) = fun _ => 0 := by
      funext s; simp only [Pi.add_apply, ho s]; ring
    rw [z] at a
    have := a.unique (hasDerivAt_const s (0 : ℝ))
    linarith
  have a := (line_deriv h1 p v 0).sub (line_deriv_neg h1 p v 0)
  have z : ((fun s : ℝ => dirD u v (p + s • v)) - fun s : ℝ => dirD u v (p - s • v)) = fun _ => 0 := by
    funext s; exact e1 s
  rw [z] at a
  have := a.unique (hasDerivAt_const 0 (0 : ℝ))
  simp only [zero_smul, add_zero, sub_zero] at this
  linarith

/-- average of two neighbours of an odd function, at distance `d` from its centre -/
theorem average_odd {u : E3 → ℝ} (hu : ContDiff ℝ (3 : ℕ) u) (q v : E3) {M h d : ℝ} (hh : 0 ≤ h) (hd : h ≤ d)
    (ho : ∀ s : ℝ, u (q - s • v) = -u (q + s • v))
    (hb : ∀ s, |s| ≤ d + h → |dirD (dirD (dirD u v) v) v (q + s • v)| ≤ M) :
    |u (q + (d + h) • v) + u (q + (d - h) • v) - 2 * u (q + d • v)| ≤ 2 * M * d * h ^ 2 := by
  have h1 : ContDiff ℝ (2 : ℕ) (dirD u v) := dirD_contDiff hu v
  have h2 : ContDiff ℝ (1 : ℕ) (dirD (dirD u v) v) := dirD_contDiff h1 v
  have z := odd_second (hu.of_le (by norm_cast)) q v ho
  have hM : 0 ≤ M := le_trans (abs_nonneg _) (hb 0 (by rw [abs_zero]; linarith))
  have b2 := grow (C := M) (h := d + h) 0 (fun s => line_deriv h2 q v s) (by simpa using z)
    (fun s hs hs' => by rw [pow_zero, mul_one]; exact hb s (by rwa [abs_of_nonneg hs]))
  have key := average (u := u) (M := 2 * M * d) (h := h) (hu.of_le (by norm_cast)) (q + d • v) v hh (by
    intro s hs
    have hs' := abs_le.1 hs
    have := b2 (d + s) (by linarith) (by linarith)
    rw [add_assoc, ← add_smul]
    refine this.trans ?_
    simp only [Nat.cast_zero, zero_add, div_one, pow_one]
    nlinarith)
  rw [add_assoc, ← add_smul] at key
  rw [show q + d • v - h • v = q + (d - h) • v by rw [sub_smul]; abel] at key
  exact key

/-- a continuous function is bounded on a box -/
theorem box_bound {f : E3 → ℝ} (hf : Continuous f) (T R Z : ℝ) :
    ∃ M, 0 ≤ M ∧ ∀ p ∈ Icc (-T) T ×ˢ Icc (-R) R ×ˢ Icc 0 Z, |f p| ≤ M := by
  obtain ⟨M, hM⟩ := (isCompact_Icc.prod (isCompact_Icc.prod isCompact_Icc)).exists_bound_of_continuousOn
    (s := Icc (-T) T ×ˢ Icc (-R) R ×ˢ Icc 0 Z) hf.continuousOn
  exact ⟨max M 0, le_max_right _ _, fun p hp => (hM p hp).trans (le_max_left _ _)⟩

end Verif
