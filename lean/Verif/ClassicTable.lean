import Verif.FixExp
import Verif.MjTable
import Verif.SamplerProps

/-!
# The table `lnInvF` of the sampler is checked against the function it tabulates

The function is Maxwell's distribution of energies, in units of the temperature. Its series is evaluated in whole numbers.
-/

namespace Verif

/-- sum of the next `n` terms of the series `∑ y^k / (3/2 * 5/2 * ... * (k + 3/2))`, rounded down -/
def mbLo (y : ℕ) : ℕ → ℕ → ℕ → ℕ → ℕ
  | 0, _, _, acc => acc
  | n + 1, k, term, acc => mbLo y n (k + 1) (2 * term * y / (SC * (2 * k + 5))) (acc + term)

/-- sum of the next `n` terms of the series and twice the term after them, rounded up -/
def mbHi (y : ℕ) : ℕ → ℕ → ℕ → ℕ → ℕ
  | 0, _, term, acc => acc + 2 * term
  | n + 1, k, term, acc => mbHi y n (k + 1) (2 * term * y / (SC * (2 * k + 5)) + 1) (acc + term)

/-- `lnInvF[i]` is right: the probability it stands for is that of its place within `1e-6` -/
def entryOkF (i : ℕ) (t : ℤ) : Bool :=
  let u : ℤ := 21 * i * SC / 999 - 19 * SC
  let t' := t * 10 ^ 9
  let y1 := eLo t'
  let y2 := eHi t'
  let w1 := eLo u
  let w2 := eHi (u + 1)
  let s := t * 15 * 10 ^ 8
  let n := 16 + 2 * (y2 / SC)
  decide (t'.natAbs ≤ 128 * SC) && decide (expLo t'.natAbs ≠ 0) && decide (y2 ≤ 128 * SC) && decide (2 * y2 ≤ n * SC) &&
    decide (u.natAbs ≤ 128 * SC) && decide ((u + 1).natAbs ≤ 128 * SC) && decide (expLo (u + 1).natAbs ≠ 0) &&
    decide (w2 ≤ 128 * SC) && decide (s.natAbs ≤ 128 * SC) && decide (expLo s.natAbs ≠ 0) &&
    decide (886226926 * SC * SC * expHi y2 ≤
      (eLo s * mbLo y1 n 0 (2 * SC / 3) 0 * 10 ^ 9 + 886 * SC * expHi y2) * expLo w1) &&
    decide (eHi s * mbHi y2 n 0 (2 * SC / 3 + 1) 0 * 10 ^ 9 * expHi w2 ≤
      (886226925 * SC * SC + 886 * SC * expHi w2) * expLo y1)

def tableOkF : ℕ → List ℤ → Bool
  | _, [] => true
  | i, t :: l => entryOkF i t && tableOkF (i + 1) l

set_option maxRecDepth 100000 in
theorem tableF_checked : tableOkF 0 lnInvF = true := by decide +kernel

end Verif
