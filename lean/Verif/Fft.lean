import Verif.Geometry
import Mathlib.Analysis.SpecialFunctions.Exponential
import Mathlib.Analysis.SpecialFunctions.Trigonometric.Basic
import Mathlib.Data.List.Perm.Basic

/-!
# Fast Fourier, sine and cosine transforms

Models class `Fourier` (src/math/fourier.cpp).  An array access outside the allocation is the result `none`.

Simplifications:
* The constant `PI` of the code is a parameter `P` here.  It is the double nearest to π; the theorems are about
  `P = π`.
* Iterations of a parallel loop are done in any order, each as a whole; they touch disjoint elements
  (`FftProps.lean` shows the results do not depend on the order).
* `int` arithmetic does not overflow (lengths below 2^30).
-/

namespace Verif

/-- A complex array -/
abbrev CArr := ℕ → ℂ

/-- The loop `while (bt>0) {...}`, src/math/fourier.cpp:103-108, from variables `bt`, `j`, `inver` to the final
`j` -/
def revLoop (bt j inver : ℕ) : ℕ :=
  if bt = 0 then j else revLoop (bt / 2) (j + (inver % 2) * bt) (inver / 2)
termination_by bt
decreasing_by omega

/-- One iteration of the reordering loop, src/math/fourier.cpp:96-116 (`k < N`) -/
def swapStep (N : ℕ) (a : CArr) (k : ℕ) : Option CArr :=
  let j := revLoop (N / 2) 0 k
  if k < j then
    if j < N then some (Function.update (Function.update a k (a j)) j (a k)) else none
  else some a

/-- `W`, src/math/fourier.cpp:131 -/
noncomputable def twiddle (P : ℝ) (s k : ℕ) : ℂ :=
  Complex.exp (((-P * 2 * k / (s * 2) : ℝ) : ℂ) * Complex.I)

/-- The two-point step, src/math/fourier.cpp:135-139 -/
noncomputable def bfly (N s : ℕ) (W : ℂ) (a : CArr) (m : ℕ) : Option CArr :=
  if m + s < N then
    some (Function.update (Function.update a m (a m + W * a (m + s))) (m + s) (a m - W * a (m + s)))
  else none

/-- Values of `m` in `for (m=k; m<N; m+=2*s)`, src/math/fourier.cpp:133 -/
def mList (N s k : ℕ) : List ℕ :=
  (List.range ((N - k + 2 * s - 1) / (2 * s))).map fun t => k + 2 * s * t

/-- One pass with step `s`, src/math/fourier.cpp:124-141, the iterations of the parallel loop over `k` in the
given order -/
noncomputable def fftPass (P : ℝ) (N s : ℕ) (order : List ℕ) (a : CArr) : Option CArr :=
  order.foldlM (fun a k => (mList N s k).foldlM (fun a m => bfly N s (twiddle P s k) a m) a) a

/-- The loop over the passes, src/math/fourier.cpp:120-143, from `n_bit` and `n_step` -/
inductive FftPasses (P : ℝ) (N : ℕ) : ℕ → ℕ → CArr → Option CArr → Prop
  | done (s a) : FftPasses P N 0 s a (some a)
  | fault (b s a order) (hb : 0 < b) (ho : List.Perm order (List.range s))
      (h : fftPass P N s order a = none) : FftPasses P N b s a none
  | step (b s a order a' res) (hb : 0 < b) (ho : List.Perm order (List.range s))
      (h : fftPass P N s order a = some a') (t : FftPasses P N (b / 2) (2 * s) a' res) :
      FftPasses P N b s a res

/-- `Fourier::fast_fourier_alg(a, N)`, src/math/fourier.cpp:93-144 -/
def Fft (P : ℝ) (N : ℕ) (a : CArr) (res : Option CArr) : Prop :=
  ∃ order : List ℕ, order.Perm (List.range N) ∧
    ((order.foldlM (swapStep N) a = none ∧ res = none) ∨
     ∃ a', order.foldlM (swapStep N) a = some a' ∧ FftPasses P N (N - 1) 1 a' res)

/-- Filling of `a_sinc` in `fast_sine_transform`, src/math/fourier.cpp:21-33: all elements are zero after the
allocation (constructor of `std::complex`); `a_sinc[0]` and `a_sinc[n]` are zeroed again; then the loop. -/
noncomputable def sineFill (n : ℕ) (a : ℕ → ℝ) (order : List ℕ) : CArr :=
  order.foldl (fun s k => Function.update (Function.update s (2 * n - k + 1) ((-a k : ℝ) : ℂ))
    (k + 1) ((a k : ℝ) : ℂ)) (fun _ => 0)

/-- `Fourier::fast_sine_transform` on one row `a` of length `n`, src/math/fourier.cpp:17-52 -/
def SineTransform (P : ℝ) (n : ℕ) (inv : Bool) (a : ℕ → ℝ) (res : Option (ℕ → ℝ)) : Prop :=
  ∃ (order : List ℕ) (r : Option CArr), order.Perm (List.range n) ∧
    Fft P (2 * n + 2) (sineFill n a order) r ∧
    res = r.map fun X k => if k < n then
        let y := (-(1 : ℂ) / (2 * Complex.I) * X (k + 1)).re
        if inv then y * 2 / ((n : ℝ) + 1) else y
      else a k

/-- One iteration of the filling loop of `fast_cosine_transform`, src/math/fourier.cpp:62-68, for an allocation of
`size` elements: the index `2n-k-2` of line 65 can be outside. -/
noncomputable def cosStep (size n : ℕ) (a : ℕ → ℝ) (s : CArr) (k : ℕ) : Option CArr :=
  if n + k < size ∧ 2 * n - k - 2 < size ∧ k < size then
    let s := Function.update s (n + k) ⟨a (n - k - 2), (s (n + k)).im⟩
    let s := Function.update s (2 * n - k - 2) ⟨(s (2 * n - k - 2)).re, 0⟩
    some (Function.update s k ⟨a k, 0⟩)
  else none

/-- Filling of `a_sinc` in `fast_cosine_transform`, src/math/fourier.cpp:58-72 (`n ≥ 2`, otherwise the index
`n-2` is negative) -/
noncomputable def cosFill (size n : ℕ) (a : ℕ → ℝ) (order : List ℕ) : Option CArr :=
  (order.foldlM (cosStep size n a) (fun _ => 0)).bind fun s =>
    if 2 ≤ n ∧ n - 1 < size then
      some (Function.update (Function.update s (n - 1) ⟨a (n - 1), 0⟩) (n - 2) ⟨a (n - 2), 0⟩)
    else none

/-- `Fourier::fast_cosine_transform` on one row of length `n`, src/math/fourier.cpp:54-91, if the allocation had
`size` elements.  In the code `size = 2n-2`. -/
def CosTransformSized (size : ℕ) (P : ℝ) (n : ℕ) (inv : Bool) (a : ℕ → ℝ) (res : Option (ℕ → ℝ)) : Prop :=
  ∃ order : List ℕ, order.Perm (List.range (n - 2)) ∧
    ((cosFill size n a order = none ∧ res = none) ∨
     ∃ s r, cosFill size n a order = some s ∧ Fft P (2 * n - 2) s r ∧
      res = r.map fun X k => if k < n then
          let y := 1 / 2 * (X k).re
          if inv then y * 2 / ((n : ℝ) - 1) else y
        else a k)

/-- `Fourier::fast_cosine_transform`, src/math/fourier.cpp:54-91 -/
def CosTransform (P : ℝ) (n : ℕ) (inv : Bool) (a : ℕ → ℝ) (res : Option (ℕ → ℝ)) : Prop :=
  CosTransformSized (2 * n - 2) P n inv a res

/-- `Fourier::fast_fourier_transform` on one row of length `n`, src/math/fourier.cpp:147-172 -/
def RealTransform (P : ℝ) (n : ℕ) (inv : Bool) (a : ℕ → ℝ) (res : Option (ℕ → ℝ)) : Prop :=
  ∃ r : Option CArr, Fft P n (fun k => ((a k : ℝ) : ℂ)) r ∧
    res = r.map fun X k => if k < n then
        (if inv then 1 / (n : ℝ) * (X k).re else (X k).re)
      else a k

end Verif
