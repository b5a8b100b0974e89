import Verif.FixExp
import Verif.SamplerProps

/-!
# The table `lnInvH` of the sampler is checked against the function it tabulates
-/

namespace Verif

/-- bounds of the exponential of a number in units of `10 ^ -30`, which may be negative -/
def eLo (t : ℤ) : ℕ := if 0 ≤ t then expLo t.toNat else SC * SC / expHi (-t).toNat
def eHi (t : ℤ) : ℕ := if 0 ≤ t then expHi t.toNat else SC * SC / expLo (-t).toNat + 1

/-- `lnInvH[i]` is right within `3e-5` -/
def entryOk (i : ℕ) (t : ℤ) : Bool :=
  let u : ℤ := 42 * i * SC / 999 - 30 * SC
  let d : ℤ := 3 * 10 ^ 25
  let t' := t * 10 ^ 9
  let y1 := eLo t'
  let y2 := eHi t'
  let g1 := eHi (u + 1 - d)
  let g2 := eLo (u + d)
  decide (expLo t'.natAbs ≠ 0) && decide (expLo (u + 1 - d).natAbs ≠ 0) && decide (t'.natAbs ≤ 128 * SC) &&
    decide ((u + 1 - d).natAbs ≤ 128 * SC) && decide ((u + d).natAbs ≤ 128 * SC) && decide (g1 ≤ 128 * SC) &&
    decide (y2 ≤ 128 * SC) &&
    decide ((2 * (SC * SC) + 2 * SC * y1 + y1 * y1) * expHi g1 ≤ 2 * (SC * SC) * expLo y1) &&
    decide (2 * (SC * SC) * expHi y2 ≤ (2 * (SC * SC) + 2 * SC * y2 + y2 * y2) * expLo g2)

def tableOk : ℕ → List ℤ → Bool
  | _, [] => true
  | i, t :: l => entryOk i t && tableOk (i + 1) l

set_option maxRecDepth 100000 in
theorem table_checked : tableOk 90 ((lnInvH.drop 90).take 718) = true := by decide +kernel

end Verif
