import Verif.Load
import Verif.DepositProps
import Verif.PusherProps
import Mathlib.Data.Nat.Digits.Defs
import Mathlib.Analysis.SpecialFunctions.Integrals.Basic

/-!
# Properties of random numbers and of particle loading (C25, C26, C27, C28, C54)
-/

namespace Verif

/-! ## C27: the reproducible random numbers -/

/-- radical inverse by recursion on the number (used only in proofs) -/
noncomputable def vdc (p : ℕ) : ℕ → ℕ → ℝ
  | 0, _ => 0
  | m + 1, n => (((n % p : ℕ) : ℝ) + vdc p m (n / p)) / p

theorem vdc_zero (p m : ℕ) : vdc p m 0 = 0 := by
  induction m with
  | zero => rfl
  | succ m ih => simp [vdc, ih]

theorem rrloop_unique {p v : ℤ} {r : ℝ} {o : ℕ} {a b : ℝ} (ha : RRLoop p v r o a)
    (hb : RRLoop p v r o b) : a = b := by
  induction ha with
  | done v r o h => cases hb with
    | done => rfl
    | step _ _ _ _ h' => exact absurd h' h
  | step v r o res h hp t ih => cases hb with
    | done _ _ _ h' => exact absurd h h'
    | step _ _ _ _ h' hp' t' => exact ih t'

theorem rrloop_vdc {p : ℕ} (hp : 2 ≤ p) : ∀ (m n : ℕ) (r : ℝ) (o : ℕ), n < p ^ m →
    RRLoop p n r (o + 1) (r + vdc p m n / (p : ℝ) ^ o) := by
  have p0 : (p : ℝ) ≠ 0 := by positivity
  intro m
  induction m with
  | zero =>
    intro n r o h
    have : n = 0 := by simpa using h
    subst this
    simpa [vdc] using RRLoop.done (power := (p : ℤ)) 0 r (o + 1) (by decide)
  | succ m ih =>
    intro n r o h
    by_cases hn : n = 0
    · subst hn
      simpa [vdc_zero] using RRLoop.done (power := (p : ℤ)) 0 r (o + 1) (by decide)
    · refine RRLoop.step _ _ _ _ (by have := Nat.pos_of_ne_zero hn; omega) (by omega) ?_
      have e1 : (n : ℤ).tmod p = ((n % p : ℕ) : ℤ) := by
        rw [Int.tmod_eq_emod_of_nonneg (by omega)]; rfl
      have e2 : ((n : ℤ) - (n : ℤ).tmod p).tdiv p = ((n / p : ℕ) : ℤ) := by
        rw [e1, Int.tdiv_eq_ediv_of_nonneg (by have := Nat.mod_le n p; omega)]
        have h1 := Nat.div_add_mod n p
        have h2 : (n : ℤ) - ((n % p : ℕ) : ℤ) = (p : ℤ) * ((n / p : ℕ) : ℤ) := by
          have : (n : ℤ) = (p : ℤ) * ((n / p : ℕ) : ℤ) + ((n % p : ℕ) : ℤ) := by exact_mod_cast h1.symm
          linarith
        rw [h2, Int.mul_ediv_cancel_left _ (by omega)]
      rw [e2, e1]
      have h3 := ih (n / p) (r + (((n % p : ℕ) : ℤ) : ℝ) * (((p : ℤ) : ℝ) ^ (o + 1))⁻¹) (o + 1)
        (Nat.div_lt_of_lt_mul (by rw [pow_succ] at h; linarith))
      convert h3 using 1
      simp only [vdc, Int.cast_natCast]
      field_simp
      ring

theorem vdc_range {p : ℕ} (hp : 2 ≤ p) (m n : ℕ) : 0 ≤ vdc p m n ∧ vdc p m n < 1 := by
  induction m generalizing n with
  | zero => simp [vdc]
  | succ m ih =>
    have p0 : (0 : ℝ) < p := by positivity
    have h1 := ih (n / p)
    have h2 : ((n % p : ℕ) : ℝ) + 1 ≤ p := by exact_mod_cast Nat.mod_lt n (by omega)
    simp only [vdc]
    constructor
    · have := h1.1; positivity
    · rw [div_lt_one p0]; linarith [h1.2]

/-- digit reversal with `m` digits -/
def rev (p : ℕ) : ℕ → ℕ → ℕ
  | 0, _ => 0
  | m + 1, n => (n % p) * p ^ m + rev p m (n / p)

theorem vdc_rev {p : ℕ} (hp : 2 ≤ p) (m n : ℕ) : vdc p m n = (rev p m n : ℝ) / (p : ℝ) ^ m := by
  have p0 : (p : ℝ) ≠ 0 := by positivity
  induction m generalizing n with
  | zero => simp [vdc, rev]
  | succ m ih =>
    simp only [vdc, rev, ih]
    push_cast
    field_simp
    ring

theorem rev_lt {p : ℕ} (hp : 2 ≤ p) (m n : ℕ) : rev p m n < p ^ m := by
  induction m generalizing n with
  | zero => simp [rev]
  | succ m ih =>
    have h1 := ih (n / p)
    have h2 : n % p + 1 ≤ p := Nat.mod_lt n (by omega)
    have h3 : (n % p + 1) * p ^ m ≤ p * p ^ m := Nat.mul_le_mul_right _ h2
    simp only [rev, pow_succ]
    nlinarith

theorem rev_inj {p : ℕ} (hp : 2 ≤ p) : ∀ (m a b : ℕ), a < p ^ m → b < p ^ m →
    rev p m a = rev p m b → a = b := by
  intro m
  induction m with
  | zero => intro a b ha hb _; simp at ha hb; omega
  | succ m ih =>
    intro a b ha hb h
    simp only [rev] at h
    have la := rev_lt hp m (a / p)
    have lb := rev_lt hp m (b / p)
    have hpm : 0 < p ^ m := by positivity
    have e1 : a % p = b % p := by
      have q : ∀ x y : ℕ, y < p ^ m → (x * p ^ m + y) / p ^ m = x := by
        intro x y hy
        rw [Nat.add_comm, Nat.add_mul_div_right _ _ hpm, Nat.div_eq_of_lt hy, Nat.zero_add]
      rw [← q (a % p) _ la, h, q _ _ lb]
    have e2 : rev p m (a / p) = rev p m (b / p) := by rw [e1] at h; omega
    have e3 := ih _ _ (Nat.div_lt_of_lt_mul (by rw [pow_succ] at ha; linarith))
      (Nat.div_lt_of_lt_mul (by rw [pow_succ] at hb; linarith)) e2
    rw [← Nat.div_add_mod a p, ← Nat.div_add_mod b p, e1, e3]

theorem lt_pow_self' {p : ℕ} (hp : 2 ≤ p) (n : ℕ) : n < p ^ n := Nat.lt_pow_self (by omega)

theorem randomReverse_vdc {p : ℕ} (hp : 2 ≤ p) {m n : ℕ} (h : n < p ^ m) :
    RandomReverse n p (vdc p m n) := by
  have := rrloop_vdc hp m n 0 0 h
  simpa [RandomReverse] using this

/-- **C27** `random_reverse` terminates with exactly one result, which is in [0,1). -/
theorem C27_total {p : ℤ} (hp : 2 ≤ p) (vel : ℝ) :
    (∃! r, RandomReverse vel p r) ∧ ∀ r, RandomReverse vel p r → 0 ≤ r ∧ r < 1 := by
  obtain ⟨q, rfl⟩ := Int.eq_ofNat_of_zero_le (show 0 ≤ p by omega)
  have hq : 2 ≤ q := by exact_mod_cast hp
  have key : ∃ r, RandomReverse vel q r ∧ 0 ≤ r ∧ r < 1 := by
    by_cases h : ⌊vel⌋ ≥ 1
    · obtain ⟨n, hn⟩ := Int.eq_ofNat_of_zero_le (show 0 ≤ ⌊vel⌋ by omega)
      refine ⟨vdc q n n, ?_, vdc_range hq _ _⟩
      have := randomReverse_vdc hq (lt_pow_self' hq n)
      simpa [RandomReverse, hn] using this
    · exact ⟨0, RRLoop.done _ _ _ h, le_refl _, one_pos⟩
  obtain ⟨r, hr, hr2⟩ := key
  exact ⟨⟨r, hr, fun s hs => rrloop_unique hs hr⟩, fun s hs => rrloop_unique hr hs ▸ hr2⟩

/-- **C27** The generator never gives the same value for two different indices. -/
theorem C27_injective {p : ℤ} (hp : 2 ≤ p) (a b : ℕ) (r : ℝ) (ha : RandomReverse a p r)
    (hb : RandomReverse b p r) : a = b := by
  obtain ⟨q, rfl⟩ := Int.eq_ofNat_of_zero_le (show 0 ≤ p by omega)
  have hq : 2 ≤ q := by exact_mod_cast hp
  have h1 : a < q ^ (a + b) := lt_of_lt_of_le (lt_pow_self' hq a) (Nat.pow_le_pow_right (by omega) (by omega))
  have h2 : b < q ^ (a + b) := lt_of_lt_of_le (lt_pow_self' hq b) (Nat.pow_le_pow_right (by omega) (by omega))
  have e1 := rrloop_unique ha (randomReverse_vdc hq h1)
  have e2 := rrloop_unique hb (randomReverse_vdc hq h2)
  rw [vdc_rev hq] at e1 e2
  have q0 : (q : ℝ) ^ (a + b) ≠ 0 := by positivity
  have : (rev q (a + b) a : ℝ) = rev q (a + b) b := by
    have := e1.symm.trans e2
    field_simp at this
    exact this
  exact rev_inj hq _ _ _ h1 h2 (by exact_mod_cast this)

/-- **C27** Of the first `p^m` values exactly one falls in each interval `[k/p^m, (k+1)/p^m)`. -/
theorem C27_equidistributed {p : ℤ} (hp : 2 ≤ p) (m : ℕ) (k : ℕ) (hk : (k : ℤ) < p ^ m) :
    ∃! n : ℕ, (n : ℤ) < p ^ m ∧
      ∃ r, RandomReverse n p r ∧ (k : ℝ) / (p : ℝ) ^ m ≤ r ∧ r < ((k : ℝ) + 1) / (p : ℝ) ^ m := by
  obtain ⟨q, rfl⟩ := Int.eq_ofNat_of_zero_le (show 0 ≤ p by omega)
  have hq : 2 ≤ q := by exact_mod_cast hp
  have hk' : k < q ^ m := by exact_mod_cast hk
  have q0 : (0 : ℝ) < (q : ℝ) ^ m := by positivity
  -- digit reversal is a bijection
  have surj : ∃ n, n < q ^ m ∧ rev q m n = k := by
    have f : Function.Injective (fun i : Fin (q ^ m) => (⟨rev q m i, rev_lt hq m i⟩ : Fin (q ^ m))) := by
      intro a b h
      exact Fin.ext (rev_inj hq m a b a.2 b.2 (by simpa using h))
    obtain ⟨n, hn⟩ := (Finite.injective_iff_surjective.mp f) ⟨k, hk'⟩
    exact ⟨n, n.2, by simpa using hn⟩
  obtain ⟨n, hn, hnk⟩ := surj
  refine ⟨n, ⟨by exact_mod_cast hn, vdc q m n, randomReverse_vdc hq hn, ?_, ?_⟩, ?_⟩
  · rw [vdc_rev hq, hnk]; norm_num
  · rw [vdc_rev hq, hnk]
    simp only [Int.cast_natCast]
    gcongr; linarith
  · rintro n' ⟨hn', r, hr, h1, h2⟩
    have hn'' : n' < q ^ m := by exact_mod_cast hn'
    have e := rrloop_unique hr (randomReverse_vdc hq hn'')
    rw [vdc_rev hq] at e
    subst e
    simp only [Int.cast_natCast] at h1 h2
    rw [div_le_div_iff_of_pos_right q0] at h1
    rw [div_lt_div_iff_of_pos_right q0] at h2
    have h1' : k ≤ rev q m n' := by exact_mod_cast h1
    have h2' : rev q m n' < k + 1 := by exact_mod_cast h2
    exact rev_inj hq m _ _ hn'' hn (by omega)

/-- Outside its domain: with base 1 the loop never ends for any index ≥ 1. -/
theorem C27_base_one_diverges (n : ℕ) (hn : 1 ≤ n) : ¬ ∃ r, RandomReverse n 1 r := by
  rintro ⟨r, h⟩
  have : ∀ v r o res, RRLoop 1 v r o res → ¬ v ≥ 1 := by
    intro v r o res h
    induction h with
    | done v r o h => exact h
    | step v r o res h hp t ih => simpa using ih
  exact this _ _ _ _ h (by simpa using hn)

/-- Not vacuous: `random_reverse(5, 3) = 7/9` (5 = 12 in base 3). -/
example : RandomReverse 5 3 (7 / 9) := by
  have := randomReverse_vdc (p := 3) (m := 2) (n := 5) (by norm_num) (by norm_num)
  norm_num [vdc] at this
  exact this

/-! ## C25, C26: loading of a species -/

theorem PI_pos' : 0 < PI := by unfold PI; norm_num

theorem list_sum_mul {α} (l : List α) (f : α → ℝ) (c : ℝ) :
    (l.map fun x => c * f x).sum = c * (l.map f).sum := List.sum_map_mul_left ..

/-- **C25** The loaded charges sum to the species charge times the number of physical particles of
the profile (mean density times the chamber volume), and each macroparticle has the species
charge-to-mass ratio, for every list of draws. -/
theorem C25_total_charge (G : Geom) (hG : G.Valid) (charge mass n1 n2 left : ℝ)
    (draws : List (ℝ × ℝ)) (hne : draws ≠ []) (hu : ∀ u ∈ draws, 0 ≤ u.1 ∧ u.1 < 1) :
    ((loadCylindrical G charge mass n1 n2 left draws).map Loaded.charge).sum
        = charge * ((n1 + n2) / 2 * (PI * G.r_size ^ 2 * G.z_size)) ∧
      ((loadCylindrical G charge mass n1 n2 left draws).map Loaded.mass).sum
        = mass * ((n1 + n2) / 2 * (PI * G.r_size ^ 2 * G.z_size)) ∧
      (loadCylindrical G charge mass n1 n2 left draws).length = draws.length ∧
      ∀ p ∈ loadCylindrical G charge mass n1 n2 left draws, p.charge * mass = p.mass * charge := by
  have hdr := hG.dr_pos
  have hdz := hG.dz_pos
  have hR : 0 ≤ G.r_size - G.dr := by
    have : (2 : ℝ) ≤ G.nr := by exact_mod_cast hG.nr_ge
    rw [hG.r_size_eq]; nlinarith
  have hpi := PI_pos'
  have hpos : ∀ u ∈ draws, G.dr / 2 ≤ (loadPos G n1 n2 left u.1 u.2).c0 := by
    intro u h
    have := mul_nonneg hR (hu u h).1
    simp only [loadPos]; linarith
  set w : ℝ × ℝ → ℝ := fun u => 2 * PI * (loadPos G n1 n2 left u.1 u.2).c0 * G.dr * G.dz with hw
  have hwpos : ∀ u ∈ draws, 0 < w u := by
    intro u h
    have := hpos u h
    have : 0 < (loadPos G n1 n2 left u.1 u.2).c0 := by linarith
    positivity
  have hsum : 0 < (draws.map w).sum := by
    apply List.sum_pos
    · intro x hx
      obtain ⟨u, hu', rfl⟩ := List.mem_map.1 hx
      exact hwpos u hu'
    · simpa using hne
  have hnum : (0 : ℝ) < draws.length := by
    have := List.length_pos_of_ne_nil hne
    exact_mod_cast this
  set va := (draws.map w).sum / draws.length with hva
  have hnorm : ∀ u ∈ draws, macroNorm G va (loadPos G n1 n2 left u.1 u.2).c0 = w u / va := by
    intro u h
    have h1 := hpos u h
    unfold macroNorm
    split_ifs with hc
    · rfl
    · have : (loadPos G n1 n2 left u.1 u.2).c0 = G.dr / 2 := by linarith
      simp only [hw, this]; ring
  have total : ∀ c : ℝ, (draws.map fun u => c * ((n1 + n2) / 2 * PI * G.r_size * G.r_size * G.z_size
        / draws.length * macroNorm G va (loadPos G n1 n2 left u.1 u.2).c0)).sum
      = c * ((n1 + n2) / 2 * (PI * G.r_size ^ 2 * G.z_size)) := by
    intro c
    have e : (draws.map fun u => c * ((n1 + n2) / 2 * PI * G.r_size * G.r_size * G.z_size
        / draws.length * macroNorm G va (loadPos G n1 n2 left u.1 u.2).c0))
        = draws.map fun u => (c * ((n1 + n2) / 2 * PI * G.r_size * G.r_size * G.z_size
        / draws.length) / va) * w u := by
      apply List.map_congr_left
      intro u h
      rw [hnorm u h]; ring
    rw [e, list_sum_mul, hva]
    field_simp
  have hl : ∀ l : List Loaded, l = loadCylindrical G charge mass n1 n2 left draws →
      l = draws.map fun u => (⟨loadPos G n1 n2 left u.1 u.2,
        charge * ((n1 + n2) / 2 * PI * G.r_size * G.r_size * G.z_size
          / draws.length * macroNorm G va (loadPos G n1 n2 left u.1 u.2).c0),
        mass * ((n1 + n2) / 2 * PI * G.r_size * G.r_size * G.z_size
          / draws.length * macroNorm G va (loadPos G n1 n2 left u.1 u.2).c0)⟩ : Loaded) := by
    rintro l rfl
    simp only [loadCylindrical, List.map_map, hva, hw]
    rfl
  rw [hl _ rfl]
  refine ⟨?_, ?_, by simp, ?_⟩
  · rw [List.map_map, ← total charge]; rfl
  · rw [List.map_map, ← total mass]; rfl
  · intro p hp
    obtain ⟨u, -, rfl⟩ := List.mem_map.1 hp
    ring

/-- Not vacuous: two macroparticles in the demo chamber. -/
example : (demoGeom).Valid ∧ ([((0 : ℝ), (0 : ℝ)), (1 / 13, 1 / 11)] : List (ℝ × ℝ)) ≠ [] ∧
    ∀ u ∈ ([((0 : ℝ), (0 : ℝ)), (1 / 13, 1 / 11)] : List (ℝ × ℝ)), 0 ≤ u.1 ∧ u.1 < 1 := by
  refine ⟨demoGeom_valid, by simp, ?_⟩
  intro u hu
  simp only [List.mem_cons, List.not_mem_nil, or_false] at hu
  rcases hu with rfl | rfl <;> norm_num

/-- The linear density profile between `a` and `b`: `n1` at `a`, `n2` at `b`. -/
noncomputable def linearDensity (a b n1 n2 x : ℝ) : ℝ := n1 + (n2 - n1) * (x - a) / (b - a)

theorem integral_linearDensity (a b n1 n2 z : ℝ) (hab : a ≠ b) :
    ∫ x in a..z, linearDensity a b n1 n2 x
      = n1 * (z - a) + (n2 - n1) * (z - a) ^ 2 / (2 * (b - a)) := by
  have hba : b - a ≠ 0 := sub_ne_zero.mpr (Ne.symm hab)
  have : ∀ x ∈ Set.uIcc a z, HasDerivAt
      (fun x => n1 * (x - a) + (n2 - n1) * (x - a) ^ 2 / (2 * (b - a)))
      (linearDensity a b n1 n2 x) x := by
    intro x _
    have h1 : HasDerivAt (fun x : ℝ => x - a) 1 x := (hasDerivAt_id x).sub_const a
    have h2 := (h1.pow 2).const_mul (n2 - n1)
    have h3 := (h1.const_mul n1).add (h2.div_const (2 * (b - a)))
    refine h3.congr_deriv ?_
    unfold linearDensity
    field_simp
    ring
  rw [intervalIntegral.integral_eq_sub_of_hasDerivAt this]
  · simp
  · apply Continuous.intervalIntegrable
    unfold linearDensity
    fun_prop

theorem loadPos_z_spec (n1 n2 L u : ℝ) (h1 : 0 < n1) (h2 : 0 < n2) (hL : 0 < L) (hu0 : 0 ≤ u)
    (hu1 : u < 1) (hd : n2 - n1 ≠ 0) :
    let d := L / (n2 - n1) * (Real.sqrt (n1 ^ 2 + u * (2 * n1 * (n2 - n1) + (n2 - n1) ^ 2)) - n1)
    0 ≤ d ∧ d < L ∧ n1 * d + (n2 - n1) * d ^ 2 / (2 * L) = u * ((n1 + n2) / 2 * L) := by
  intro d
  have hq : n1 ^ 2 + u * (2 * n1 * (n2 - n1) + (n2 - n1) ^ 2) = (1 - u) * n1 ^ 2 + u * n2 ^ 2 := by ring
  set s := Real.sqrt (n1 ^ 2 + u * (2 * n1 * (n2 - n1) + (n2 - n1) ^ 2)) with hs
  have hs2 : s ^ 2 = (1 - u) * n1 ^ 2 + u * n2 ^ 2 := by
    rw [hs, Real.sq_sqrt, hq]
    rw [hq]
    have := sq_nonneg n1; have := sq_nonneg n2
    have h3 : 0 ≤ 1 - u := by linarith
    positivity
  have hs0 : 0 ≤ s := Real.sqrt_nonneg _
  have hd' : d = L * ((s - n1) / (n2 - n1)) := by simp only [d]; ring
  set y := (s - n1) / (n2 - n1) with hy
  have hys : s = n1 + (n2 - n1) * y := by rw [hy]; field_simp; ring
  have hy0 : 0 ≤ y := by
    rcases lt_or_gt_of_ne hd with h | h
    · apply div_nonneg_of_nonpos _ h.le
      have : s ≤ n1 := (pow_le_pow_iff_left₀ hs0 h1.le two_ne_zero).1 (by
        rw [hs2]; nlinarith [mul_nonneg hu0 (mul_pos (neg_pos.2 h) (add_pos h1 h2)).le])
      linarith
    · apply div_nonneg _ h.le
      have : n1 ≤ s := (pow_le_pow_iff_left₀ h1.le hs0 two_ne_zero).1 (by
        rw [hs2]; nlinarith [mul_nonneg hu0 (mul_pos h (add_pos h1 h2)).le])
      linarith
  have hy1 : y < 1 := by
    rcases lt_or_gt_of_ne hd with h | h
    · rw [hy, div_lt_one_of_neg h]
      have : n2 < s := (pow_lt_pow_iff_left₀ h2.le hs0 two_ne_zero).1 (by
        rw [hs2]; nlinarith [mul_pos (sub_pos.2 hu1) (mul_pos (neg_pos.2 h) (add_pos h1 h2))])
      linarith
    · rw [hy, div_lt_one h]
      have : s < n2 := (pow_lt_pow_iff_left₀ hs0 h2.le two_ne_zero).1 (by
        rw [hs2]; nlinarith [mul_pos (sub_pos.2 hu1) (mul_pos h (add_pos h1 h2))])
      linarith
  refine ⟨by rw [hd']; positivity, by rw [hd']; nlinarith, ?_⟩
  rw [hd']
  have : 2 * n1 * y + (n2 - n1) * y ^ 2 = u * (n1 + n2) := by
    have h4 : (n2 - n1) * (2 * n1 * y + (n2 - n1) * y ^ 2) = (n2 - n1) * (u * (n1 + n2)) := by
      have : s ^ 2 - n1 ^ 2 = u * (n2 ^ 2 - n1 ^ 2) := by rw [hs2]; ring
      rw [hys] at this
      linear_combination this
    exact mul_left_cancel₀ hd h4
  field_simp
  linear_combination this

/-- **C26** A species loaded from the near end (`left = 0`, the only use, src/loadInitParam.cpp:163):
the particle is at least half a cell from the near walls, strictly before the far limits, and the
amount of plasma of the linear profile before it is exactly the fraction `u` of the whole. -/
theorem C26_position (G : Geom) (hG : G.Valid) (hnr : 3 ≤ G.nr) (hnz : 3 ≤ G.nz) (n1 n2 : ℝ)
    (h1 : 0 < n1) (h2 : 0 < n2)
    (ur uz : ℝ) (hr : 0 ≤ ur ∧ ur < 1) (hz : 0 ≤ uz ∧ uz < 1) :
    let p := loadPos G n1 n2 0 ur uz
    let a := G.dz / 2
    let b := G.z_size - G.dz / 2
    (G.dr / 2 ≤ p.c0 ∧ p.c0 < G.r_size - G.dr / 2) ∧ (a ≤ p.c2 ∧ p.c2 < b) ∧ p.c1 = 0 ∧
      ∫ x in a..p.c2, linearDensity a b n1 n2 x = uz * ∫ x in a..b, linearDensity a b n1 n2 x := by
  intro p a b
  have hdr := hG.dr_pos
  have hdz := hG.dz_pos
  have hR : 0 < G.r_size - G.dr := by
    have : (3 : ℝ) ≤ G.nr := by exact_mod_cast hnr
    rw [hG.r_size_eq]; nlinarith
  have hZ : 0 < G.z_size - G.dz := by
    have : (3 : ℝ) ≤ G.nz := by exact_mod_cast hnz
    rw [hG.z_size_eq]; nlinarith
  have hab : b - a = G.z_size - G.dz := by simp only [a, b]; ring
  have hne : a ≠ b := by intro h; rw [h] at hab; linarith
  refine ⟨?_, ?_⟩
  · simp only [p, loadPos]
    constructor
    · nlinarith [hr.1]
    · nlinarith [hr.2]
  · rw [integral_linearDensity _ _ _ _ _ hne, integral_linearDensity _ _ _ _ _ hne, hab]
    by_cases hd : n2 - n1 = 0
    · have e : p.c2 = uz * (G.z_size - G.dz) + a := by simp [p, loadPos, hd, a]
      rw [e, hd]
      refine ⟨⟨?_, ?_⟩, rfl, ?_⟩
      · nlinarith [hz.1]
      · have : b = (G.z_size - G.dz) + a := by linarith
        rw [this]; nlinarith [hz.2]
      · ring
    · have h := loadPos_z_spec n1 n2 (G.z_size - G.dz) uz h1 h2 hZ hz.1 hz.2 hd
      simp only at h
      set d := (G.z_size - G.dz) / (n2 - n1) *
        (Real.sqrt (n1 ^ 2 + uz * (2 * n1 * (n2 - n1) + (n2 - n1) ^ 2)) - n1) with hdd
      have e : p.c2 = d + a := by simp [p, loadPos, hd, a, hdd]
      rw [e]
      refine ⟨⟨by linarith [h.1], by linarith [h.2.1]⟩, rfl, ?_⟩
      have e2 : d + a - a = d := by ring
      rw [e2, h.2.2]
      field_simp
      ring

/-- Outside that use: for equal densities a nonzero left boundary shifts the whole plasma instead of
shortening it, so some draw lands outside the chamber. -/
theorem C26_left_boundary_violated (G : Geom) (hG : G.Valid) (hnz : 3 ≤ G.nz) (n left : ℝ)
    (hl : G.dz ≤ left) :
    ∃ uz, 0 ≤ uz ∧ uz < 1 ∧ G.z_size < (loadPos G n n left 0 uz).c2 := by
  have hdz := hG.dz_pos
  have hZ : 2 * G.dz ≤ G.z_size := by
    have : (3 : ℝ) ≤ G.nz := by exact_mod_cast hnz
    rw [hG.z_size_eq]; nlinarith
  have hZ' : 0 < G.z_size - G.dz := by linarith
  refine ⟨1 - G.dz / 4 / (G.z_size - G.dz), ?_, ?_, ?_⟩
  · rw [sub_nonneg, div_le_one hZ']; linarith
  · have : 0 < G.dz / 4 / (G.z_size - G.dz) := by positivity
    linarith
  · simp only [loadPos, sub_self, if_true]
    have : (1 - G.dz / 4 / (G.z_size - G.dz)) * (G.z_size - G.dz) = G.z_size - G.dz - G.dz / 4 := by
      field_simp
    rw [this]; linarith

/-- The draws the code makes for `number` macroparticles, src/particles.cpp:290-293. -/
def CodeDraws (number : ℕ) (draws : List (ℝ × ℝ)) : Prop :=
  draws.length = number ∧ ∀ (n : ℕ) (u : ℝ × ℝ), draws[n]? = some u →
    RandomReverse n 13 u.1 ∧ RandomReverse ((number - 1 - n : ℕ) : ℝ) 11 u.2

/-- **C25, C26** for the draws the code really makes: they exist, loading gives the exact total
charge, every particle is inside the chamber, and no two particles have the same radius. -/
theorem C26_code_draws (G : Geom) (hG : G.Valid) (hnr : 3 ≤ G.nr) (hnz : 3 ≤ G.nz)
    (charge mass n1 n2 : ℝ) (h1 : 0 < n1) (h2 : 0 < n2) (number : ℕ) (hn : 1 ≤ number) :
    ∃ draws, CodeDraws number draws ∧
      (let l := loadCylindrical G charge mass n1 n2 0 draws
       (l.map Loaded.charge).sum = charge * ((n1 + n2) / 2 * (PI * G.r_size ^ 2 * G.z_size)) ∧
       l.length = number ∧
       (∀ p ∈ l, G.dr / 2 ≤ p.pos.c0 ∧ p.pos.c0 < G.r_size - G.dr / 2 ∧
         G.dz / 2 ≤ p.pos.c2 ∧ p.pos.c2 < G.z_size - G.dz / 2) ∧
       (l.map fun p => p.pos.c0).Nodup) := by
  choose f hf hf' using fun (v : ℝ) => (C27_total (p := 13) (by norm_num) v).1
  choose g hg hg' using fun (v : ℝ) => (C27_total (p := 11) (by norm_num) v).1
  have rf : ∀ v, 0 ≤ f v ∧ f v < 1 := fun v => (C27_total (p := 13) (by norm_num) v).2 _ (hf v)
  have rg : ∀ v, 0 ≤ g v ∧ g v < 1 := fun v => (C27_total (p := 11) (by norm_num) v).2 _ (hg v)
  set draws := (List.range number).map fun n : ℕ => (f n, g ((number - 1 - n : ℕ) : ℝ)) with hd
  have hR : 0 < G.r_size - G.dr := by
    have h3 : (3 : ℝ) ≤ G.nr := by exact_mod_cast hnr
    have := hG.dr_pos
    rw [hG.r_size_eq]; nlinarith
  have hlen : draws.length = number := by simp [hd]
  have hmem : ∀ u ∈ draws, (0 ≤ u.1 ∧ u.1 < 1) ∧ 0 ≤ u.2 ∧ u.2 < 1 := by
    intro u hu
    obtain ⟨n, -, rfl⟩ := List.mem_map.1 hu
    exact ⟨rf _, rg _⟩
  have hne : draws ≠ [] := by
    intro h; rw [h] at hlen; simp at hlen; omega
  have hc := C25_total_charge G hG charge mass n1 n2 0 draws hne (fun u hu => (hmem u hu).1)
  refine ⟨draws, ⟨hlen, ?_⟩, hc.1, by rw [hc.2.2.1, hlen], ?_, ?_⟩
  · intro n u hu
    simp only [hd, List.getElem?_map, Option.map_eq_some_iff] at hu
    obtain ⟨k, hk, rfl⟩ := hu
    rw [List.getElem?_range] at hk
    · cases hk; exact ⟨hf _, hg _⟩
    · by_contra hge
      rw [List.getElem?_eq_none (by simpa using hge)] at hk
      cases hk
  · intro p hp
    simp only [loadCylindrical, List.mem_map] at hp
    obtain ⟨q, ⟨u, hu, rfl⟩, rfl⟩ := hp
    have := C26_position G hG hnr hnz n1 n2 h1 h2 u.1 u.2 (hmem u hu).1 (hmem u hu).2
    exact ⟨this.1.1, this.1.2, this.2.1.1, this.2.1.2⟩
  · simp only [loadCylindrical, List.map_map, hd]
    apply List.Nodup.map_on _ List.nodup_range
    intro a _ b _ hab
    simp only [Function.comp_apply, loadPos] at hab
    have : f a = f b := mul_left_cancel₀ hR.ne' (by linarith)
    exact C27_injective (p := 13) (by norm_num) a b (f a) (hf a) (this ▸ hf b)

/-! ## C54: initial velocities -/

theorem gammaInv_comp (x : ℝ) :
    (x * getGammaInv (x * x)) ^ 2 = LIGHT_SPEED ^ 2 * x ^ 2 / (LIGHT_SPEED ^ 2 + x ^ 2) := by
  rw [mul_pow, getGammaInv_sq (mul_self_nonneg x), LIGHT_SPEED_POW_2]
  ring

/-- **C54 (partial)** Every component of an initial velocity is below the light speed, and the speed
is below it whenever the classical speed of the sample is.  Missing: the speed itself is not bounded
by the light speed, see `C54_speed_violated`. -/
theorem C54_speed_partial (mass energy : ℝ) (rnd : V3) :
    let v := thermalVelocity mass energy rnd
    let u := rnd.smul (Real.sqrt (2 * EL_CHARGE * energy / mass) * 0.74)
    |v.c0| < LIGHT_SPEED ∧ |v.c1| < LIGHT_SPEED ∧ |v.c2| < LIGHT_SPEED ∧
      V3.dot v v ≤ V3.dot u u := by
  intro v u
  have hc := LIGHT_SPEED_pos
  have hc2 : 0 < LIGHT_SPEED ^ 2 := by positivity
  have a : ∀ x : ℝ, |x * getGammaInv (x * x)| < LIGHT_SPEED := by
    intro x
    apply abs_lt_of_sq_lt_sq _ hc.le
    rw [gammaInv_comp, div_lt_iff₀ (by positivity)]
    nlinarith
  have b : ∀ x : ℝ, (x * getGammaInv (x * x)) ^ 2 ≤ x ^ 2 := by
    intro x
    rw [gammaInv_comp, div_le_iff₀ (by positivity)]
    nlinarith [sq_nonneg (x ^ 2)]
  refine ⟨a _, a _, a _, ?_⟩
  have b0 := b u.c0
  have b1 := b u.c1
  have b2 := b u.c2
  simp only [V3.dot]
  have e0 : v.c0 = u.c0 * getGammaInv (u.c0 * u.c0) := rfl
  have e1 : v.c1 = u.c1 * getGammaInv (u.c1 * u.c1) := rfl
  have e2 : v.c2 = u.c2 * getGammaInv (u.c2 * u.c2) := rfl
  rw [e0, e1, e2]
  nlinarith

/-- **C54** fails: the relativistic factor is computed for each component on its own, so a hot
electron can be given a speed above the light speed. -/
theorem C54_speed_violated : ∃ (mass energy : ℝ) (rnd : V3), mass = 9.1e-31 ∧ 0 < energy ∧
    (rnd.c0 = 1 / 2 ∧ rnd.c1 = 1 / 2 ∧ rnd.c2 = 1 / 2) ∧
    V3.dot (thermalVelocity mass energy rnd) (thermalVelocity mass energy rnd) > LIGHT_SPEED ^ 2 := by
  refine ⟨9.1e-31, (1e9 / 0.74) ^ 2 * 9.1e-31 / (2 * EL_CHARGE), ⟨1 / 2, 1 / 2, 1 / 2⟩, rfl,
    ?_, ⟨rfl, rfl, rfl⟩, ?_⟩
  · have := EL_CHARGE_pos
    positivity
  · have h : Real.sqrt (2 * EL_CHARGE * ((1e9 / 0.74) ^ 2 * 9.1e-31 / (2 * EL_CHARGE)) / 9.1e-31) * 0.74
        = 1e9 := by
      have he := EL_CHARGE_pos
      have : 2 * EL_CHARGE * ((1e9 / 0.74) ^ 2 * 9.1e-31 / (2 * EL_CHARGE)) / 9.1e-31
          = ((1e9 : ℝ) / 0.74) ^ 2 := by field_simp
      rw [this, Real.sqrt_sq (by positivity)]
      norm_num
    simp only [thermalVelocity, h, V3.dot, V3.smul]
    have g := gammaInv_comp (1e9 * (1 / 2))
    have g' := gammaInv_comp (1 / 2 * 1e9)
    unfold LIGHT_SPEED at *
    norm_num at g g' ⊢
    nlinarith

/-! ## C28: charge of a bunch -/

section bunch
variable (G : Geom) (charge mass duration radius density velocity : ℝ)

/-- charge that a bunch should carry: density × volume of a cylinder × charge of a particle -/
noncomputable def prescribedBunchCharge : ℝ :=
  charge * (density * (PI * radius ^ 2 * (duration * velocity)))

theorem newBunch_sum (hG : G.Valid) (draws : List ℝ) (hne : draws ≠ [])
    (hpos : ∀ u ∈ draws, G.dr / 2 ≤ (radius - G.dr) * u + G.dr / 2) :
    ((newBunch G charge mass duration radius density velocity draws).map Loaded.charge).sum *
      (draws.map fun u => let r := (radius - G.dr) * u + G.dr / 2
        if r > G.dr then 2 * PI * r * G.dr * G.dz else PI * r * r * G.dz).sum
      = prescribedBunchCharge charge duration radius density velocity *
        (draws.map fun u => 2 * PI * ((radius - G.dr) * u + G.dr / 2) * G.dr * G.dz).sum := by
  have hdr := hG.dr_pos
  have hdz := hG.dz_pos
  have hpi := PI_pos'
  have hnum : (0 : ℝ) < draws.length := by
    have := List.length_pos_of_ne_nil hne
    exact_mod_cast this
  set vt := (draws.map fun u => let r := (radius - G.dr) * u + G.dr / 2
        if r > G.dr then 2 * PI * r * G.dr * G.dz else PI * r * r * G.dz).sum with hvt
  have hvpos : 0 < vt := by
    apply List.sum_pos
    · intro x hx
      obtain ⟨u, hu', rfl⟩ := List.mem_map.1 hx
      have := hpos u hu'
      have : 0 < (radius - G.dr) * u + G.dr / 2 := by linarith
      simp only
      split_ifs <;> positivity
    · simpa using hne
  have e : (newBunch G charge mass duration radius density velocity draws).map Loaded.charge
      = draws.map fun u => (charge * (PI * radius ^ 2 * (duration * velocity) * density
          / draws.length) / (vt / draws.length)) *
          (2 * PI * ((radius - G.dr) * u + G.dr / 2) * G.dr * G.dz) := by
    simp only [newBunch, List.map_map]
    apply List.map_congr_left
    intro u h
    have h1 := hpos u h
    simp only [Function.comp_apply]
    have : ∀ va : ℝ, macroNorm G va ((radius - G.dr) * u + G.dr / 2)
        = 2 * PI * ((radius - G.dr) * u + G.dr / 2) * G.dr * G.dz / va := by
      intro va
      unfold macroNorm
      split_ifs with hc
      · rfl
      · have : (radius - G.dr) * u + G.dr / 2 = G.dr / 2 := by linarith
        rw [this]; ring
    rw [this]
    have hc : (List.map ((fun r => if r > G.dr then 2 * PI * r * G.dr * G.dz else PI * r * r * G.dz) ∘
        fun u => (radius - G.dr) * u + G.dr / 2) draws).sum = vt := rfl
    rw [hc]
    ring
  rw [e, list_sum_mul]
  unfold prescribedBunchCharge
  generalize (draws.map fun u => 2 * PI * ((radius - G.dr) * u + G.dr / 2) * G.dr * G.dz).sum = w
  field_simp

/-- **C28 (partial)** If no macroparticle was drawn within one cell of the axis, the charges of a new
bunch sum to exactly the prescribed charge, and each has the charge-to-mass ratio of the species.
Missing: draws within a cell of the axis, see `C28_near_axis_violated`. -/
theorem C28_total_charge_partial (hG : G.Valid) (draws : List ℝ) (hne : draws ≠ [])
    (hoff : ∀ u ∈ draws, G.dr < (radius - G.dr) * u + G.dr / 2) :
    ((newBunch G charge mass duration radius density velocity draws).map Loaded.charge).sum
      = prescribedBunchCharge charge duration radius density velocity ∧
    ∀ p ∈ newBunch G charge mass duration radius density velocity draws,
      p.charge * mass = p.mass * charge := by
  have hdr := hG.dr_pos
  have hdz := hG.dz_pos
  have hpi := PI_pos'
  constructor
  · have h := newBunch_sum G charge mass duration radius density velocity hG draws hne
      (fun u hu => by linarith [hoff u hu])
    have e : (draws.map fun u => let r := (radius - G.dr) * u + G.dr / 2
        if r > G.dr then 2 * PI * r * G.dr * G.dz else PI * r * r * G.dz)
        = draws.map fun u => 2 * PI * ((radius - G.dr) * u + G.dr / 2) * G.dr * G.dz := by
      apply List.map_congr_left
      intro u hu
      exact if_pos (hoff u hu)
    rw [e] at h
    refine mul_right_cancel₀ (ne_of_gt ?_) h
    apply List.sum_pos
    · intro x hx
      obtain ⟨u, hu', rfl⟩ := List.mem_map.1 hx
      have := hoff u hu'
      have : 0 < (radius - G.dr) * u + G.dr / 2 := by linarith
      positivity
    · simpa using hne
  · intro p hp
    simp only [newBunch, List.mem_map] at hp
    obtain ⟨r, -, rfl⟩ := hp
    ring

/-- **C28** fails for every bunch with a macroparticle drawn within one cell of the axis: the
bunch then carries strictly more charge than prescribed. -/
theorem C28_near_axis_violated (hG : G.Valid) (draws : List ℝ)
    (hpos : ∀ u ∈ draws, G.dr / 2 ≤ (radius - G.dr) * u + G.dr / 2)
    (hq : 0 < prescribedBunchCharge charge duration radius density velocity)
    (u : ℝ) (hu : u ∈ draws) (hnear : (radius - G.dr) * u + G.dr / 2 ≤ G.dr) :
    ((newBunch G charge mass duration radius density velocity draws).map Loaded.charge).sum
      > prescribedBunchCharge charge duration radius density velocity := by
  have hdr := hG.dr_pos
  have hdz := hG.dz_pos
  have hpi := PI_pos'
  have hne : draws ≠ [] := List.ne_nil_of_mem hu
  have h := newBunch_sum G charge mass duration radius density velocity hG draws hne hpos
  set vt := (draws.map fun u => let r := (radius - G.dr) * u + G.dr / 2
        if r > G.dr then 2 * PI * r * G.dr * G.dz else PI * r * r * G.dz).sum with hvt
  set wt := (draws.map fun u => 2 * PI * ((radius - G.dr) * u + G.dr / 2) * G.dr * G.dz).sum with hwt
  have hvpos : 0 < vt := by
    apply List.sum_pos
    · intro x hx
      obtain ⟨u, hu', rfl⟩ := List.mem_map.1 hx
      have := hpos u hu'
      have : 0 < (radius - G.dr) * u + G.dr / 2 := by linarith
      simp only
      split_ifs <;> positivity
    · simpa using hne
  have lt : vt < wt := by
    apply List.sum_lt_sum
    · intro x hx
      have h1 := hpos x hx
      simp only
      split_ifs with hc
      · exact le_refl _
      · have : 0 < (radius - G.dr) * x + G.dr / 2 := by linarith
        generalize (radius - G.dr) * x + G.dr / 2 = r at *
        have h2 : r * r ≤ 2 * r * G.dr := by nlinarith
        have h3 : 0 < PI * G.dz := by positivity
        nlinarith [mul_le_mul_of_nonneg_left h2 h3.le]
    · refine ⟨u, hu, ?_⟩
      have h1 := hpos u hu
      simp only
      rw [if_neg (by linarith)]
      have : 0 < (radius - G.dr) * u + G.dr / 2 := by linarith
      generalize (radius - G.dr) * u + G.dr / 2 = r at *
      have h2 : r * r < 2 * r * G.dr := by nlinarith
      have h3 : 0 < PI * G.dz := by positivity
      nlinarith [mul_lt_mul_of_pos_left h2 h3]
  by_contra hle
  push Not at hle
  have h1 := mul_le_mul_of_nonneg_right hle hvpos.le
  have h2 := mul_lt_mul_of_pos_left lt hq
  linarith

end bunch

/-- Not vacuous, both ways: draws `1/2` in a chamber of cell 1/2: radius 2 gives r = 1 > dr, while
the draw 0 (which is `random_reverse(0, 9)`, the first draw of every bunch in test mode) gives
r = dr/2. -/
example : demoGeom.Valid ∧ (∀ u ∈ [(1 : ℝ) / 2], demoGeom.dr < (4 * demoGeom.dr - demoGeom.dr) * u + demoGeom.dr / 2) ∧
    (∀ u ∈ [(0 : ℝ)], demoGeom.dr / 2 ≤ (4 * demoGeom.dr - demoGeom.dr) * u + demoGeom.dr / 2 ∧
      (4 * demoGeom.dr - demoGeom.dr) * u + demoGeom.dr / 2 ≤ demoGeom.dr) ∧
    0 < prescribedBunchCharge 1 1 1 1 1 ∧ RandomReverse 0 9 0 := by
  have h := demoGeom_valid.dr_pos
  refine ⟨demoGeom_valid, ?_, ?_, ?_, ?_⟩
  · intro u hu
    rw [List.mem_singleton.1 hu]; linarith
  · intro u hu
    rw [List.mem_singleton.1 hu]; constructor <;> linarith
  · unfold prescribedBunchCharge; have := PI_pos'; nlinarith
  · exact RRLoop.done _ _ _ (by norm_num)

end Verif
