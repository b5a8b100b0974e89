import Verif.Geometry

/-!
# Tridiagonal solver

Models `EField::tridiagonal_solve` (src/eField.cpp:180-202).  The arrays have `n` elements each; an
access outside them and a division by zero are the result `none`.  The function has no caller in /repo
and works on arrays of its caller, so the five arrays are taken as distinct.
-/

namespace Verif

/-- Checked load `f[i]` of an array of `n` elements -/
def ldN (n : ℕ) (f : ℕ → ℝ) (i : ℤ) : Option ℝ := if 0 ≤ i ∧ i < n then some (f i.toNat) else none

/-- Checked store `f[i] = v` -/
def stN (n : ℕ) (f : ℕ → ℝ) (i : ℤ) (v : ℝ) : Option (ℕ → ℝ) :=
  if 0 ≤ i ∧ i < n then some (Function.update f i.toNat v) else none

/-- Division; a zero divisor gives infinity or not-a-number in the code. -/
noncomputable def divN (x y : ℝ) : Option ℝ := if y = 0 then none else some (x / y)

/-- One iteration of the elimination, src/eField.cpp:190-195 -/
noncomputable def triElim (n : ℕ) (a b : ℕ → ℝ) (s : (ℕ → ℝ) × (ℕ → ℝ)) (i : ℤ) :
    Option ((ℕ → ℝ) × (ℕ → ℝ)) := do
  let bi ← ldN n b i
  let cp ← ldN n s.1 (i - 1)
  let ai ← ldN n a i
  let id := bi - cp * ai
  let ci ← ldN n s.1 i
  let q ← divN ci id
  let c ← stN n s.1 i q
  let di ← ldN n s.2 i
  let dp ← ldN n s.2 (i - 1)
  let q' ← divN (di - dp * ai) id
  let d ← stN n s.2 i q'
  return (c, d)

/-- One iteration of the back substitution, src/eField.cpp:200-201 -/
noncomputable def triBack (n : ℕ) (c d x : ℕ → ℝ) (i : ℤ) : Option (ℕ → ℝ) := do
  let di ← ldN n d i
  let ci ← ldN n c i
  let xn ← ldN n x (i + 1)
  stN n x i (di - ci * xn)

/-- `EField::tridiagonal_solve(a, b, c, d, x, n)`, src/eField.cpp:180-202: the new contents of `x`.  The
contents of `c` and `d` are destroyed. -/
noncomputable def tridiagonalSolve (n : ℕ) (a b c d x : ℕ → ℝ) : Option (ℕ → ℝ) := do
  let b0 ← ldN n b 0
  let c0 ← ldN n c 0
  let q ← divN c0 b0
  let c ← stN n c 0 q
  let d0 ← ldN n d 0
  let q' ← divN d0 b0
  let d ← stN n d 0 q'
  let s ← ((List.range' 1 (n - 1)).map fun j : ℕ => (j : ℤ)).foldlM (triElim n a b) (c, d)
  let dl ← ldN n s.2 ((n : ℤ) - 1)
  let x ← stN n x ((n : ℤ) - 1) dl
  ((List.range (n - 1)).reverse.map fun j : ℕ => (j : ℤ)).foldlM (triBack n s.1 s.2) x

end Verif
