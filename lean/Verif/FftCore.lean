import Verif.Fft
import Mathlib.Data.Nat.Bitwise
import Mathlib.Analysis.SpecialFunctions.Complex.Log
import Mathlib.Tactic.Ring
import Mathlib.Tactic.Linarith

/-!
# The FFT computes the discrete Fourier transform
-/

namespace Verif

/-! ## Bit reversal -/

/-- reversal of the lowest `m` bits -/
def brev : ℕ → ℕ → ℕ
  | 0, _ => 0
  | m + 1, t => 2 ^ m * (t % 2) + brev m (t / 2)

theorem brev_lt (m t : ℕ) : brev m t < 2 ^ m := by
  induction m generalizing t with
  | zero => simp [brev]
  | succ m ih =>
    have := ih (t / 2)
    have h2 : t % 2 < 2 := Nat.mod_lt _ (by norm_num)
    rw [brev, pow_succ]
    nlinarith

theorem brev_testBit (m t i : ℕ) : (brev m t).testBit i = (decide (i < m) && t.testBit (m - 1 - i)) := by
  induction m generalizing t i with
  | zero => simp [brev]
  | succ m ih =>
    rw [brev, Nat.testBit_two_pow_mul_add _ (brev_lt m _)]
    split_ifs with h
    · rw [ih, Nat.testBit_div_two]
      have e : m - 1 - i + 1 = m + 1 - 1 - i := by omega
      rw [e]
      simp [h, show i < m + 1 by omega]
    · rcases Nat.eq_or_lt_of_not_lt h with rfl | hlt
      · simp [Nat.testBit_zero]
      · have h1 : (t % 2).testBit (i - m) = false := by
          have : i - m ≠ 0 := by omega
          obtain ⟨c, hc⟩ := Nat.exists_eq_succ_of_ne_zero this
          rw [hc, Nat.succ_eq_add_one, Nat.testBit_succ]
          have : t % 2 / 2 = 0 := by omega
          rw [this]; simp
        rw [h1]
        simp [show ¬ i < m + 1 by omega]

theorem brev_brev {m t : ℕ} (h : t < 2 ^ m) : brev m (brev m t) = t := by
  apply Nat.eq_of_testBit_eq
  intro i
  rw [brev_testBit]
  by_cases hi : i < m
  · rw [brev_testBit]
    have e : m - 1 - (m - 1 - i) = i := by omega
    rw [e]
    simp [hi, show m - 1 - i < m by omega]
  · have : t.testBit i = false := by
      apply Nat.testBit_eq_false_of_lt
      exact lt_of_lt_of_le h (Nat.pow_le_pow_right (by norm_num) (by omega))
    simp [hi, this]

theorem revLoop_pow (m j t : ℕ) : revLoop (2 ^ m) j t = j + brev (m + 1) t := by
  induction m generalizing j t with
  | zero =>
    rw [revLoop, if_neg (by norm_num), revLoop, if_pos (by norm_num)]
    simp [brev]
  | succ m ih =>
    rw [revLoop, if_neg (by positivity), show 2 ^ (m + 1) / 2 = 2 ^ m by rw [pow_succ]; omega, ih]
    rw [show brev (m + 1 + 1) t = 2 ^ (m + 1) * (t % 2) + brev (m + 1) (t / 2) from rfl]
    ring

theorem revLoop_full (p t : ℕ) : revLoop (2 ^ p / 2) 0 t = brev p t := by
  cases p with
  | zero => rw [revLoop]; simp [brev]
  | succ m =>
    rw [show 2 ^ (m + 1) / 2 = 2 ^ m by rw [pow_succ]; omega, revLoop_pow, zero_add]

/-- the reordering loop in any order -/
theorem swap_fold (p : ℕ) (a : CArr) (L : List ℕ) :
    ∀ (S : List ℕ) (b : CArr), (S ++ L).Nodup → (∀ k ∈ L, k < 2 ^ p) →
    (∀ i < 2 ^ p, b i = if min i (brev p i) ∈ S then a (brev p i) else a i) →
    ∃ c, L.foldlM (swapStep (2 ^ p)) b = some c ∧
      ∀ i < 2 ^ p, c i = if min i (brev p i) ∈ S ++ L then a (brev p i) else a i := by
  induction L with
  | nil => intro S b _ _ hb; exact ⟨b, rfl, by simpa using hb⟩
  | cons k L ih =>
    intro S b hnd hL hb
    have hk : k < 2 ^ p := hL k (by simp)
    have hkS : k ∉ S := by
      intro h
      rw [List.nodup_append] at hnd
      exact hnd.2.2 k h k (by simp) rfl
    have hr := brev_lt p k
    have hrr := brev_brev hk
    have happ : S ++ k :: L = (S ++ [k]) ++ L := by simp
    suffices h : ∃ b', swapStep (2 ^ p) b k = some b' ∧
        ∀ i < 2 ^ p, b' i = if min i (brev p i) ∈ S ++ [k] then a (brev p i) else a i by
      obtain ⟨b', e, hb'⟩ := h
      rw [happ] at hnd ⊢
      obtain ⟨c, hc, hc'⟩ := ih (S ++ [k]) b' hnd (fun k' h => hL k' (by simp [h])) hb'
      refine ⟨c, ?_, hc'⟩
      rw [List.foldlM_cons, e]
      exact hc
    unfold swapStep
    dsimp only
    rw [revLoop_full]
    by_cases h1 : k < brev p k
    · rw [if_pos h1, if_pos hr]
      refine ⟨_, rfl, ?_⟩
      have hbk : b k = a k := by
        rw [hb k hk, if_neg]
        rw [min_eq_left h1.le]; exact hkS
      have hbj : b (brev p k) = a (brev p k) := by
        rw [hb _ hr, if_neg]
        rw [hrr, min_eq_right h1.le]; exact hkS
      intro i hi
      by_cases e1 : i = brev p k
      · subst e1
        rw [Function.update_self, if_pos (by rw [hrr, min_eq_right h1.le]; simp), hbk, hrr]
      · rw [Function.update_of_ne e1]
        by_cases e2 : i = k
        · subst e2
          rw [Function.update_self, if_pos (by rw [min_eq_left h1.le]; simp), hbj]
        · rw [Function.update_of_ne e2, hb i hi]
          have : min i (brev p i) ≠ k := by
            intro h
            rcases min_choice i (brev p i) with h' | h'
            · exact e2 (h'.symm.trans h)
            · apply e1
              rw [← brev_brev hi, ← h', h]
          simp [this]
    · rw [if_neg h1]
      refine ⟨_, rfl, ?_⟩
      intro i hi
      rw [hb i hi]
      by_cases h2 : min i (brev p i) = k
      · -- then `i = k = brev k`
        have hik : i = k ∧ brev p i = i := by
          rcases min_choice i (brev p i) with h' | h'
          · have : i = k := by rw [← h2, h']
            subst this
            refine ⟨rfl, ?_⟩
            have : i ≤ brev p i := by
              have h'' : min i (brev p i) ≤ brev p i := min_le_right _ _
              rwa [h'] at h''
            omega
          · have hb' : brev p i = k := by rw [← h2, h']
            have hik : i = brev p k := by rw [← hb', brev_brev hi]
            have : k ≤ i := by rw [← h2]; exact min_le_left _ _
            have : i = k := by omega
            exact ⟨this, by rw [hb', this]⟩
        rw [hik.2]; simp
      · simp [h2]

theorem swap_all (p : ℕ) (a : CArr) {order : List ℕ} (h : order.Perm (List.range (2 ^ p))) :
    ∃ c, order.foldlM (swapStep (2 ^ p)) a = some c ∧ ∀ i < 2 ^ p, c i = a (brev p i) := by
  obtain ⟨c, h1, h2⟩ := swap_fold p a order [] a (by simpa using (h.nodup_iff.2 List.nodup_range))
    (fun k hk => by simpa using h.mem_iff.1 hk) (fun i hi => by simp)
  refine ⟨c, h1, ?_⟩
  intro i hi
  rw [h2 i hi, if_pos]
  rw [List.nil_append, h.mem_iff, List.mem_range]
  exact lt_of_le_of_lt (min_le_left _ _) hi

/-! ## A pass -/

theorem mList_mod {N s k m : ℕ} (hk : k < s) (h : m ∈ mList N s k) : m % (2 * s) = k := by
  unfold mList at h
  obtain ⟨t, -, rfl⟩ := List.mem_map.1 h
  rw [Nat.add_mul_mod_self_left, Nat.mod_eq_of_lt (by omega)]

theorem mem_mList {N s k m : ℕ} (hs : 0 < s) (hk : k < s) :
    m ∈ mList N s k ↔ m < N ∧ m % (2 * s) = k := by
  constructor
  · intro h
    refine ⟨?_, mList_mod hk h⟩
    unfold mList at h
    obtain ⟨t, ht, rfl⟩ := List.mem_map.1 h
    rw [List.mem_range, Nat.lt_div_iff_mul_lt (by omega)] at ht
    have : 2 * s * t = t * (2 * s) := Nat.mul_comm _ _
    omega
  · rintro ⟨h1, h2⟩
    unfold mList
    refine List.mem_map.2 ⟨m / (2 * s), ?_, ?_⟩
    · rw [List.mem_range, Nat.lt_div_iff_mul_lt (by omega)]
      have := Nat.div_add_mod m (2 * s)
      have : 2 * s * (m / (2 * s)) = m / (2 * s) * (2 * s) := Nat.mul_comm _ _
      omega
    · have := Nat.div_add_mod m (2 * s)
      omega

theorem mList_nodup {N s k : ℕ} (hs : 0 < s) : (mList N s k).Nodup := by
  unfold mList
  refine List.Nodup.map ?_ List.nodup_range
  intro x y h
  dsimp only at h
  have : 2 * s * x = 2 * s * y := by omega
  exact Nat.eq_of_mul_eq_mul_left (by omega) this

/-- the two-point steps of a list of base indices -/
theorem bfly_fold {N s : ℕ} (hs : 0 < s) (W : ℕ → ℂ) (L : List ℕ) :
    ∀ a : CArr, L.Nodup → (∀ m ∈ L, m % (2 * s) < s ∧ m + s < N) →
    L.foldlM (fun a m => bfly N s (W (m % (2 * s))) a m) a = some fun i =>
      if i % (2 * s) < s then
        (if i ∈ L then a i + W (i % (2 * s)) * a (i + s) else a i)
      else
        (if i - s ∈ L then a (i - s) - W ((i - s) % (2 * s)) * a i else a i) := by
  induction L with
  | nil => intro a _ _; simp
  | cons m L ih =>
    intro a hnd hL
    obtain ⟨hm, hmN⟩ := hL m (by simp)
    have hmL : m ∉ L := (List.nodup_cons.1 hnd).1
    have high : ∀ x, x % (2 * s) < s → ¬ (x + s) % (2 * s) < s := by
      intro x hx
      rw [Nat.add_mod, Nat.mod_eq_of_lt (show s < 2 * s by omega), Nat.mod_eq_of_lt (by omega)]
      omega
    rw [List.foldlM_cons]
    have e : bfly N s (W (m % (2 * s))) a m = some (Function.update
        (Function.update a m (a m + W (m % (2 * s)) * a (m + s))) (m + s)
        (a m - W (m % (2 * s)) * a (m + s))) := by
      unfold bfly; rw [if_pos hmN]
    rw [e]
    simp only [Option.bind_eq_bind, Option.bind_some]
    rw [ih _ (List.nodup_cons.1 hnd).2 (fun x hx => hL x (by simp [hx]))]
    congr 1
    funext i
    by_cases hi : i % (2 * s) < s
    · rw [if_pos hi, if_pos hi]
      have n1 : i ≠ m + s := by rintro rfl; exact high m hm hi
      have n2 : i + s ≠ m := by rintro rfl; exact high i hi hm
      by_cases him : i = m
      · subst him
        rw [if_neg hmL, if_pos (by simp), Function.update_of_ne n1, Function.update_self]
      · have n3 : i + s ≠ m + s := by omega
        simp only [List.mem_cons, him, false_or]
        rw [Function.update_of_ne n1, Function.update_of_ne him, Function.update_of_ne n3,
          Function.update_of_ne n2]
    · rw [if_neg hi, if_neg hi]
      have his : s ≤ i := by
        by_contra h
        apply hi
        rw [Nat.mod_eq_of_lt (by omega)]; omega
      have hlow : (i - s) % (2 * s) < s := by
        by_contra h
        have h2 := Nat.mod_lt (i - s) (show 0 < 2 * s by omega)
        apply hi
        have : i = (i - s) + s := by omega
        rw [this, Nat.add_mod, Nat.mod_eq_of_lt (show s < 2 * s by omega),
          Nat.mod_eq_sub_mod (by omega), Nat.mod_eq_of_lt (by omega)]
        omega
      have n1 : i ≠ m := by rintro rfl; exact hi hm
      have n2 : i - s ≠ m + s := by
        intro h; rw [h] at hlow; exact high m hm hlow
      by_cases him : i - s = m
      · have him' : i = m + s := by omega
        rw [him, if_neg hmL, if_pos (by simp), him', Function.update_self]
      · have n3 : i ≠ m + s := by omega
        simp only [List.mem_cons, him, false_or]
        rw [Function.update_of_ne n3, Function.update_of_ne n1, Function.update_of_ne n2,
          Function.update_of_ne him]

theorem fftPass_flat (P : ℝ) (N s : ℕ) {order : List ℕ} (ho : ∀ k ∈ order, k < s) (a : CArr) :
    fftPass P N s order a =
      (order.flatMap (mList N s)).foldlM (fun a m => bfly N s (twiddle P s (m % (2 * s))) a m) a := by
  induction order generalizing a with
  | nil => rfl
  | cons k order ih =>
    rw [List.flatMap_cons, List.foldlM_append]
    have e : (mList N s k).foldlM (fun a m => bfly N s (twiddle P s (m % (2 * s))) a m) a =
        (mList N s k).foldlM (fun a m => bfly N s (twiddle P s k) a m) a := by
      have : ∀ (L : List ℕ) (a : CArr), (∀ m ∈ L, m % (2 * s) = k) →
          L.foldlM (fun a m => bfly N s (twiddle P s (m % (2 * s))) a m) a =
            L.foldlM (fun a m => bfly N s (twiddle P s k) a m) a := by
        intro L
        induction L with
        | nil => intro a _; rfl
        | cons m L ihL =>
          intro a h
          rw [List.foldlM_cons, List.foldlM_cons, h m (by simp)]
          congr 1
          funext b
          exact ihL b (fun x hx => h x (by simp [hx]))
      exact this _ a (fun m hm => mList_mod (ho k (by simp)) hm)
    rw [e]
    unfold fftPass
    rw [List.foldlM_cons]
    congr 1
    funext b
    exact ih (fun k' h => ho k' (by simp [h])) b

/-- What a pass computes when the length is a multiple of `2s`, in every order. -/
theorem fftPass_spec (P : ℝ) {N s : ℕ} (hs : 0 < s) (hN : 2 * s ∣ N) {order : List ℕ}
    (ho : order.Perm (List.range s)) (a : CArr) :
    ∃ c, fftPass P N s order a = some c ∧ ∀ i < N,
      c i = if i % (2 * s) < s then a i + twiddle P s (i % (2 * s)) * a (i + s)
        else a (i - s) - twiddle P s ((i - s) % (2 * s)) * a i := by
  have hmem : ∀ k ∈ order, k < s := fun k hk => by simpa using ho.mem_iff.1 hk
  have hL : ∀ m, m ∈ order.flatMap (mList N s) ↔ m < N ∧ m % (2 * s) < s := by
    intro m
    rw [List.mem_flatMap]
    constructor
    · rintro ⟨k, hk, h⟩
      obtain ⟨h1, h2⟩ := (mem_mList hs (hmem k hk)).1 h
      exact ⟨h1, by rw [h2]; exact hmem k hk⟩
    · rintro ⟨h1, h2⟩
      refine ⟨m % (2 * s), ho.mem_iff.2 (List.mem_range.2 h2), (mem_mList hs h2).2 ⟨h1, rfl⟩⟩
  have hnd : (order.flatMap (mList N s)).Nodup := by
    rw [List.nodup_flatMap]
    refine ⟨fun k _ => mList_nodup hs, ?_⟩
    have := ho.nodup_iff.2 List.nodup_range
    rw [List.Nodup] at this
    apply List.Pairwise.imp_of_mem _ this
    intro x y hx hy hxy
    intro m hm1 hm2
    apply hxy
    rw [← mList_mod (hmem x hx) hm1, ← mList_mod (hmem y hy) hm2]
  have hbase : ∀ m, m < N → m % (2 * s) < s → m + s < N := by
    intro m h1 h2
    obtain ⟨c, rfl⟩ := hN
    have := Nat.div_add_mod m (2 * s)
    have hlt : m / (2 * s) < c := by
      rw [Nat.div_lt_iff_lt_mul (by omega), Nat.mul_comm]; exact h1
    have : 2 * s * (m / (2 * s) + 1) ≤ 2 * s * c := Nat.mul_le_mul_left _ hlt
    rw [Nat.mul_add] at this
    omega
  have hfold := bfly_fold (N := N) hs (twiddle P s) _ a hnd (fun m hm => by
    obtain ⟨h1, h2⟩ := (hL m).1 hm
    exact ⟨h2, hbase m h1 h2⟩)
  rw [← fftPass_flat P N s hmem] at hfold
  refine ⟨_, hfold, ?_⟩
  · intro i hi
    by_cases h : i % (2 * s) < s
    · rw [if_pos h, if_pos h, if_pos ((hL i).2 ⟨hi, h⟩)]
    · rw [if_neg h, if_neg h, if_pos]
      rw [hL]
      refine ⟨by omega, ?_⟩
      by_contra h'
      have h2 := Nat.mod_lt (i - s) (show 0 < 2 * s by omega)
      apply h
      have his : s ≤ i := by
        by_contra h3
        apply h
        rw [Nat.mod_eq_of_lt (by omega)]; omega
      have : i = (i - s) + s := by omega
      rw [this, Nat.add_mod, Nat.mod_eq_of_lt (show s < 2 * s by omega),
        Nat.mod_eq_sub_mod (by omega), Nat.mod_eq_of_lt (by omega)]
      omega

/-! ## Roots of unity -/

/-- `exp(-2πi x / N)` -/
noncomputable def eps (N : ℕ) (x : ℕ) : ℂ := Complex.exp (-(2 * Real.pi * Complex.I * x / N))

theorem eps_add (N x y : ℕ) : eps N (x + y) = eps N x * eps N y := by
  unfold eps
  rw [← Complex.exp_add]
  congr 1
  push_cast
  ring

theorem eps_zero (N : ℕ) : eps N 0 = 1 := by simp [eps]

theorem eps_two (N x : ℕ) : eps (2 * N) (2 * x) = eps N x := by
  unfold eps
  congr 1
  push_cast
  rcases Nat.eq_zero_or_pos N with rfl | h
  · simp
  · have : (N : ℂ) ≠ 0 := by exact_mod_cast h.ne'
    field_simp

theorem eps_self {N : ℕ} (hN : 0 < N) (x : ℕ) : eps N (N * x) = 1 := by
  unfold eps
  rw [Complex.exp_eq_one_iff]
  refine ⟨-(x : ℤ), ?_⟩
  have : (N : ℂ) ≠ 0 := by exact_mod_cast hN.ne'
  push_cast
  field_simp

theorem eps_half {N : ℕ} (hN : 0 < N) : eps (2 * N) N = -1 := by
  unfold eps
  have : (N : ℂ) ≠ 0 := by exact_mod_cast hN.ne'
  have e : -(2 * (Real.pi : ℂ) * Complex.I * N / ((2 * N : ℕ) : ℂ)) = -(Real.pi * Complex.I) := by
    push_cast
    field_simp
  rw [e, Complex.exp_neg, Complex.exp_pi_mul_I]
  norm_num

theorem eps_half_odd {N : ℕ} (hN : 0 < N) (j : ℕ) : eps (2 * N) ((2 * j + 1) * N) = -1 := by
  have e : (2 * j + 1) * N = 2 * N * j + N := by ring
  rw [e, eps_add, eps_self (by omega), eps_half hN, one_mul]

theorem twiddle_eq {s : ℕ} (hs : 0 < s) (k : ℕ) : twiddle Real.pi s k = eps (2 * s) k := by
  unfold twiddle eps
  congr 1
  have : (s : ℂ) ≠ 0 := by exact_mod_cast hs.ne'
  push_cast
  field_simp

theorem sum_even_odd (n : ℕ) (f : ℕ → ℂ) :
    ∑ j ∈ Finset.range (2 * n), f j = ∑ j ∈ Finset.range n, f (2 * j) + ∑ j ∈ Finset.range n, f (2 * j + 1) := by
  induction n with
  | zero => simp
  | succ n ih =>
    rw [show 2 * (n + 1) = 2 * n + 1 + 1 by ring, Finset.sum_range_succ, Finset.sum_range_succ, ih,
      Finset.sum_range_succ, Finset.sum_range_succ]
    ring

/-! ## The passes -/

/-- Contents after the passes up to step `2^q`: block `t` holds the transform of every `2^(p-q)`-th element -/
def FftInv (p q : ℕ) (a A : CArr) : Prop :=
  ∀ t < 2 ^ (p - q), ∀ k < 2 ^ q, A (t * 2 ^ q + k) =
    ∑ j ∈ Finset.range (2 ^ q), a (j * 2 ^ (p - q) + brev (p - q) t) * eps (2 ^ q) (j * k)

theorem FftInv.next {p q : ℕ} (hq : q < p) {a A c : CArr} (h : FftInv p q a A)
    (hc : ∀ i < 2 ^ p, c i =
      if i % (2 * 2 ^ q) < 2 ^ q then A i + twiddle Real.pi (2 ^ q) (i % (2 * 2 ^ q)) * A (i + 2 ^ q)
        else A (i - 2 ^ q) - twiddle Real.pi (2 ^ q) ((i - 2 ^ q) % (2 * 2 ^ q)) * A i) :
    FftInv p (q + 1) a c := by
  obtain ⟨m, hm⟩ : ∃ m, p - q = m + 1 := ⟨p - q - 1, by omega⟩
  have hm' : p - (q + 1) = m := by omega
  have hp : p = q + 1 + m := by omega
  unfold FftInv at h ⊢
  rw [hm] at h
  rw [hm']
  set s := 2 ^ q with hsdef
  have hs : 0 < s := by positivity
  have hs2 : 2 ^ (q + 1) = 2 * s := by rw [pow_succ]; ring
  have hN : 2 ^ p = 2 * s * 2 ^ m := by rw [hp, pow_add, hs2]
  rw [hs2]
  -- values before the pass
  have v0 : ∀ t < 2 ^ m, ∀ k < s, A (t * (2 * s) + k) =
      ∑ j ∈ Finset.range s, a (2 * j * 2 ^ m + brev m t) * eps s (j * k) := by
    intro t ht k hk
    have := h (2 * t) (by rw [pow_succ]; omega) k hk
    rw [show 2 * t * s + k = t * (2 * s) + k by ring] at this
    rw [this]
    apply Finset.sum_congr rfl
    intro j _
    congr 2
    rw [brev, pow_succ]
    simp
    ring
  have v1 : ∀ t < 2 ^ m, ∀ k < s, A (t * (2 * s) + k + s) =
      ∑ j ∈ Finset.range s, a ((2 * j + 1) * 2 ^ m + brev m t) * eps s (j * k) := by
    intro t ht k hk
    have := h (2 * t + 1) (by rw [pow_succ]; omega) k hk
    rw [show (2 * t + 1) * s + k = t * (2 * s) + k + s by ring] at this
    rw [this]
    apply Finset.sum_congr rfl
    intro j _
    congr 2
    rw [brev, pow_succ]
    have e1 : (2 * t + 1) % 2 = 1 := by omega
    have e2 : (2 * t + 1) / 2 = t := by omega
    rw [e1, e2]
    ring
  have bound : ∀ t < 2 ^ m, ∀ k < 2 * s, t * (2 * s) + k < 2 ^ p := by
    intro t ht k hk
    rw [hN]
    have : (t + 1) * (2 * s) ≤ 2 ^ m * (2 * s) := Nat.mul_le_mul_right _ ht
    nlinarith
  have modlow : ∀ t k, k < 2 * s → (t * (2 * s) + k) % (2 * s) = k := by
    intro t k hk
    rw [Nat.mul_comm t, Nat.mul_add_mod, Nat.mod_eq_of_lt hk]
  intro t ht k hk
  rw [hc _ (bound t ht k hk), modlow t k hk, sum_even_odd]
  by_cases hks : k < s
  · rw [if_pos hks, v0 t ht k hks, v1 t ht k hks, twiddle_eq hs]
    congr 1
    · apply Finset.sum_congr rfl
      intro j _
      rw [show 2 * j * k = 2 * (j * k) by ring, eps_two]
    · rw [Finset.mul_sum]
      apply Finset.sum_congr rfl
      intro j _
      rw [show (2 * j + 1) * k = 2 * (j * k) + k by ring, eps_add, eps_two]
      ring
  · obtain ⟨k', rfl⟩ : ∃ k', k = k' + s := ⟨k - s, by omega⟩
    have hk' : k' < s := by omega
    rw [if_neg hks, show t * (2 * s) + (k' + s) - s = t * (2 * s) + k' by omega,
      modlow t k' (by omega), show t * (2 * s) + (k' + s) = t * (2 * s) + k' + s by ring,
      v0 t ht k' hk', v1 t ht k' hk', twiddle_eq hs, sub_eq_add_neg]
    congr 1
    · apply Finset.sum_congr rfl
      intro j _
      rw [show 2 * j * (k' + s) = 2 * (j * k') + 2 * s * j by ring, eps_add, eps_two, eps_self (by omega),
        mul_one]
    · rw [Finset.mul_sum, ← Finset.sum_neg_distrib]
      apply Finset.sum_congr rfl
      intro j _
      rw [show (2 * j + 1) * (k' + s) = 2 * (j * k') + k' + (2 * j + 1) * s by ring, eps_add, eps_add, eps_two,
        eps_half_odd hs]
      ring

theorem fftPasses_spec {p : ℕ} {a : CArr} (m : ℕ) :
    ∀ (q : ℕ) (A : CArr) (res : Option CArr), q + m = p → FftInv p q a A →
      FftPasses Real.pi (2 ^ p) (2 ^ m - 1) (2 ^ q) A res → ∃ c, res = some c ∧ FftInv p p a c := by
  induction m with
  | zero =>
    intro q A res hq hA h
    obtain rfl : q = p := by omega
    cases h with
    | done => exact ⟨A, rfl, hA⟩
    | fault _ _ _ _ hb => simp at hb
    | step _ _ _ _ _ _ hb => simp at hb
  | succ m ih =>
    intro q A res hq hA h
    have hdvd : 2 * 2 ^ q ∣ 2 ^ p := by
      refine ⟨2 ^ m, ?_⟩
      rw [← hq, pow_add, pow_succ]; ring
    have h0 : 2 ^ (m + 1) - 1 ≠ 0 := by
      have : 2 ≤ 2 ^ (m + 1) := by rw [pow_succ]; have := Nat.one_le_two_pow (n := m); omega
      omega
    generalize hb0 : 2 ^ (m + 1) - 1 = b at h
    cases h with
    | done => exact absurd hb0 h0
    | fault _ _ _ order hb ho hf =>
      obtain ⟨c, hc, -⟩ := fftPass_spec Real.pi (N := 2 ^ p) (s := 2 ^ q) (by positivity) hdvd ho A
      rw [hc] at hf; cases hf
    | step _ _ _ order a' _ hb ho hf ht =>
      obtain ⟨c, hc, hv⟩ := fftPass_spec Real.pi (N := 2 ^ p) (s := 2 ^ q) (by positivity) hdvd ho A
      rw [hc] at hf; cases hf
      have e1 : b / 2 = 2 ^ m - 1 := by rw [← hb0, pow_succ]; omega
      rw [e1, show 2 * 2 ^ q = 2 ^ (q + 1) by rw [pow_succ]; ring] at ht
      exact ih (q + 1) _ _ (by omega) (hA.next (by omega) hv) ht

theorem fftPasses_exists (P : ℝ) {p : ℕ} (m : ℕ) :
    ∀ (q : ℕ) (A : CArr), q + m = p → ∃ res, FftPasses P (2 ^ p) (2 ^ m - 1) (2 ^ q) A res := by
  induction m with
  | zero => intro q A _; exact ⟨_, FftPasses.done _ _⟩
  | succ m ih =>
    intro q A hq
    have hdvd : 2 * 2 ^ q ∣ 2 ^ p := by
      refine ⟨2 ^ m, ?_⟩
      rw [← hq, pow_add, pow_succ]; ring
    obtain ⟨c, hc, -⟩ := fftPass_spec P (N := 2 ^ p) (s := 2 ^ q) (by positivity) hdvd
      (List.Perm.refl (List.range (2 ^ q))) A
    obtain ⟨res, hr⟩ := ih (q + 1) c (by omega)
    refine ⟨res, FftPasses.step _ _ _ _ c _ ?_ (List.Perm.refl _) hc ?_⟩
    · have : 2 ≤ 2 ^ (m + 1) := by rw [pow_succ]; have := Nat.one_le_two_pow (n := m); omega
      omega
    · rw [show (2 ^ (m + 1) - 1) / 2 = 2 ^ m - 1 by rw [pow_succ]; omega,
        show 2 * 2 ^ q = 2 ^ (q + 1) by rw [pow_succ]; ring]
      exact hr

end Verif
