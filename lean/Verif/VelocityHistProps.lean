import Verif.VelocityHist
import Mathlib.Algebra.Order.Floor.Ring
import Mathlib.Algebra.BigOperators.Group.Finset.Basic
import Mathlib.Tactic.Linarith
import Mathlib.Tactic.FieldSimp

/-!
# What the notebook of the velocity distribution shows
-/

namespace Verif

namespace VelocityHist

open Classical in
theorem countTo (slices : List ℝ) (v : ℝ) (n : ℕ) : ∀ stat : List ℕ, n ≤ stat.length →
    ((List.range n).foldl (fun stat j =>
      if slices.getD j 0 < v ∧ v ≤ slices.getD (j + 1) 0 then stat.set j (stat.getD j 0 + 1) else stat) stat).length = stat.length ∧
    ∀ j, ((List.range n).foldl (fun stat j =>
      if slices.getD j 0 < v ∧ v ≤ slices.getD (j + 1) 0 then stat.set j (stat.getD j 0 + 1) else stat) stat).getD j 0 =
        stat.getD j 0 + if j < n ∧ slices.getD j 0 < v ∧ v ≤ slices.getD (j + 1) 0 then 1 else 0 := by
  induction n with
  | zero => simp
  | succ n ih =>
    intro stat hn
    obtain ⟨h1, h2⟩ := ih stat (by omega)
    rw [List.range_succ, List.foldl_append, List.foldl_cons, List.foldl_nil]
    obtain ⟨s, hs⟩ : ∃ s, s = (List.range n).foldl (fun stat j =>
      if slices.getD j 0 < v ∧ v ≤ slices.getD (j + 1) 0 then stat.set j (stat.getD j 0 + 1) else stat) stat := ⟨_, rfl⟩
    rw [← hs] at h1 h2 ⊢
    by_cases hc : slices.getD n 0 < v ∧ v ≤ slices.getD (n + 1) 0
    · rw [if_pos hc]
      refine ⟨by rw [List.length_set, h1], fun j => ?_⟩
      by_cases hj : j = n
      · subst hj
        have : (s.set j (s.getD j 0 + 1)).getD j 0 = s.getD j 0 + 1 := by
          rw [List.getD_eq_getElem?_getD, List.getElem?_set_self (by omega)]
          rfl
        rw [this, h2 j, if_neg (by omega), if_pos ⟨by omega, hc⟩]
      · have : (s.set n (s.getD n 0 + 1)).getD j 0 = s.getD j 0 := by
          rw [List.getD_eq_getElem?_getD, List.getElem?_set_ne (by omega), ← List.getD_eq_getElem?_getD]
        rw [this, h2 j]
        congr 1
        have : (j < n + 1) ↔ j < n := by omega
        simp only [this]
    · rw [if_neg hc]
      refine ⟨h1, fun j => ?_⟩
      rw [h2 j]
      congr 1
      by_cases hj : j = n
      · subst hj
        rw [if_neg (by omega), if_neg (by tauto)]
      · have : (j < n + 1) ↔ j < n := by omega
        simp only [this]

open Classical in
theorem countAll (slices : List ℝ) (data : List ℝ) : ∀ stat : List ℕ, slices.length - 1 ≤ stat.length →
    (data.foldl (countOne slices) stat).length = stat.length ∧
    ∀ j, (data.foldl (countOne slices) stat).getD j 0 = stat.getD j 0 + if j < slices.length - 1 then
      (data.filter fun v => decide (slices.getD j 0 < v ∧ v ≤ slices.getD (j + 1) 0)).length else 0 := by
  induction data with
  | nil =>
    intro stat _
    simp
  | cons v data ih =>
    intro stat h
    obtain ⟨h1, h2⟩ := countTo slices v (slices.length - 1) stat h
    have hl : (countOne slices stat v).length = stat.length := h1
    obtain ⟨h3, h4⟩ := ih (countOne slices stat v) (by rw [hl]; exact h)
    rw [List.foldl_cons]
    refine ⟨by rw [h3, hl], fun j => ?_⟩
    have h5 : (countOne slices stat v).getD j 0 = _ := h2 j
    rw [h4 j, h5, add_assoc]
    congr 1
    by_cases hj : j < slices.length - 1
    · rw [if_pos hj, if_pos hj, List.filter_cons]
      by_cases hc : slices.getD j 0 < v ∧ v ≤ slices.getD (j + 1) 0
      · rw [if_pos ⟨hj, hc⟩, if_pos (by simpa using hc), List.length_cons]
        omega
      · rw [if_neg (by tauto), if_neg (by simpa using hc)]
        omega
    · rw [if_neg hj, if_neg (by tauto), if_neg hj]

theorem foldl_max (xs : List ℝ) (m : ℝ) : ∀ x, (∀ v ∈ x :: xs, v ≤ m) → m ∈ x :: xs → xs.foldl max x = m := by
  induction xs with
  | nil =>
    intro x _ hm
    simpa using (List.mem_singleton.1 hm).symm
  | cons y ys ih =>
    intro x h hm
    rw [List.foldl_cons]
    apply ih
    · intro v hv
      rcases List.mem_cons.1 hv with rfl | hv
      · exact max_le (h x (by simp)) (h y (by simp))
      · exact h v (by simp [hv])
    · rcases List.mem_cons.1 hm with rfl | hm
      · rw [max_eq_left (h y (by simp))]
        exact List.mem_cons_self
      · rcases List.mem_cons.1 hm with rfl | hm
        · rw [max_eq_right (h x (by simp))]
          exact List.mem_cons_self
        · exact List.mem_cons_of_mem _ hm

theorem foldl_min (xs : List ℝ) (m : ℝ) : ∀ x, (∀ v ∈ x :: xs, m ≤ v) → m ∈ x :: xs → xs.foldl min x = m := by
  induction xs with
  | nil =>
    intro x _ hm
    simpa using (List.mem_singleton.1 hm).symm
  | cons y ys ih =>
    intro x h hm
    rw [List.foldl_cons]
    apply ih
    · intro v hv
      rcases List.mem_cons.1 hv with rfl | hv
      · exact le_min (h x (by simp)) (h y (by simp))
      · exact h v (by simp [hv])
    · rcases List.mem_cons.1 hm with rfl | hm
      · rw [min_eq_left (h y (by simp))]
        exact List.mem_cons_self
      · rcases List.mem_cons.1 hm with rfl | hm
        · rw [min_eq_right (h x (by simp))]
          exact List.mem_cons_self
        · exact List.mem_cons_of_mem _ hm

theorem npMax_eq {data : List ℝ} {m : ℝ} (h : ∀ v ∈ data, v ≤ m) (hm : m ∈ data) : npMaxL data = some m := by
  cases data with
  | nil => simp at hm
  | cons x xs => rw [npMaxL, foldl_max xs m x h hm]

theorem npMin_eq {data : List ℝ} {m : ℝ} (h : ∀ v ∈ data, m ≤ v) (hm : m ∈ data) : npMinL data = some m := by
  cases data with
  | nil => simp at hm
  | cons x xs => rw [npMinL, foldl_min xs m x h hm]

/-- The points of the histogram -/
theorem points {segments : ℕ} (hs : 2 ≤ segments) {data : List ℝ} {mn mx : ℝ} (hmn : mn ∈ data) (hle : ∀ v ∈ data, mn ≤ v)
    (hmx : mx ∈ data) (hge : ∀ v ∈ data, v ≤ mx) : ∃ pts, velocityHistogram segments data = some pts ∧ pts.length = segments ∧
      ∀ j < segments, pts[j]? = some (mn + j * ((mx - mn) / ((segments : ℝ) - 1)), if j < segments - 1 then
        (open Classical in (data.filter fun v => decide (mn + j * ((mx - mn) / ((segments : ℝ) - 1)) < v ∧
          v ≤ mn + (j + 1 : ℕ) * ((mx - mn) / ((segments : ℝ) - 1)))).length) else 0) := by
  obtain ⟨sl, hsl⟩ : ∃ sl, sl = (List.range segments).map fun i : ℕ => mn + (i : ℝ) * ((mx - mn) / ((segments : ℝ) - 1)) := ⟨_, rfl⟩
  have hlin : linspace mn mx segments = some sl := by
    unfold linspace
    rw [if_neg (by omega), if_neg (by omega), hsl, Int.toNat_natCast]
    simp
  have hlen : sl.length = segments := by simp [hsl]
  have hget : ∀ j < segments, sl.getD j 0 = mn + (j : ℝ) * ((mx - mn) / ((segments : ℝ) - 1)) := by
    intro j hj
    rw [hsl, List.getD_eq_getElem?_getD, List.getElem?_map, List.getElem?_range hj]
    rfl
  obtain ⟨h1, h2⟩ := countAll sl data (List.replicate segments 0) (by rw [hlen, List.length_replicate]; omega)
  rw [List.length_replicate] at h1
  refine ⟨sl.zip (data.foldl (countOne sl) (List.replicate segments 0)), ?_, ?_, fun j hj => ?_⟩
  · unfold velocityHistogram
    simp only [npMax_eq hge hmx, npMin_eq hle hmn, Option.bind_eq_bind, Option.bind_some, hlin]
  · rw [List.length_zip, hlen, h1, min_self]
  · rw [List.getElem?_zip_eq_some]
    constructor
    · rw [hsl, List.getElem?_map, List.getElem?_range hj]
      rfl
    · have h3 := h2 j
      rw [List.getD_eq_getElem?_getD, List.getElem?_eq_getElem (by omega), Option.getD_some] at h3
      rw [List.getElem?_eq_getElem (by omega), h3, hlen]
      congr 1
      rw [List.getD_eq_getElem?_getD, List.getElem?_replicate_of_lt hj, Option.getD_some, zero_add]
      by_cases hj' : j < segments - 1
      · rw [if_pos hj', if_pos hj', hget j hj, hget (j + 1) (by omega)]
      · rw [if_neg hj', if_neg hj']

/-- The number of values in intervals that follow each other without gap -/
theorem partition (data : List ℝ) (mn w : ℝ) (hw : 0 < w) (n : ℕ) (h : ∀ v ∈ data, mn ≤ v ∧ v ≤ mn + n * w) :
    open Classical in
    ∑ j ∈ Finset.range n, (data.filter fun v => decide (mn + j * w < v ∧ v ≤ mn + (j + 1 : ℕ) * w)).length =
      (data.filter fun v => decide (mn < v)).length := by
  classical
  induction data with
  | nil => simp
  | cons v data ih =>
    have ih' := ih fun x hx => h x (List.mem_cons_of_mem _ hx)
    obtain ⟨hv1, hv2⟩ := h v List.mem_cons_self
    have e : ∀ j ∈ Finset.range n, ((v :: data).filter fun v => decide (mn + j * w < v ∧ v ≤ mn + (j + 1 : ℕ) * w)).length =
        (if mn + j * w < v ∧ v ≤ mn + (j + 1 : ℕ) * w then 1 else 0) +
          (data.filter fun v => decide (mn + j * w < v ∧ v ≤ mn + (j + 1 : ℕ) * w)).length := by
      intro j _
      rw [List.filter_cons]
      by_cases hc : mn + j * w < v ∧ v ≤ mn + (j + 1 : ℕ) * w
      · rw [if_pos (by simpa using hc), if_pos hc, List.length_cons]
        omega
      · rw [if_neg (by simpa using hc), if_neg hc]
        omega
    rw [Finset.sum_congr rfl e, Finset.sum_add_distrib, ih', List.filter_cons]
    by_cases hm : mn < v
    · rw [if_pos (by simpa using hm), List.length_cons]
      obtain ⟨q, hq⟩ : ∃ q : ℝ, q = (v - mn) / w := ⟨_, rfl⟩
      have hvq : v = mn + q * w := by
        rw [hq]
        field_simp
        ring
      have hq0 : 0 < q := by
        rw [hq]
        exact div_pos (by linarith) hw
      have hqn : q ≤ n := by
        rw [hq, div_le_iff₀ hw]
        linarith
      obtain ⟨k, hk⟩ : ∃ k, k = ⌈q⌉₊ := ⟨_, rfl⟩
      have hk1 : 1 ≤ k := by
        rw [hk]
        exact Nat.one_le_iff_ne_zero.2 (Nat.ceil_pos.2 hq0).ne'
      have hkn : k ≤ n := by
        rw [hk]
        exact Nat.ceil_le.2 hqn
      have hiff : ∀ j : ℕ, (mn + j * w < v ∧ v ≤ mn + (j + 1 : ℕ) * w) ↔ j = k - 1 := by
        intro j
        rw [hvq]
        have a1 : mn + j * w < mn + q * w ↔ j < k := by
          rw [hk, Nat.lt_ceil]
          constructor
          · intro h
            exact lt_of_mul_lt_mul_right (by linarith) hw.le
          · intro h
            have := mul_lt_mul_of_pos_right h hw
            linarith
        have a2 : mn + q * w ≤ mn + (j + 1 : ℕ) * w ↔ k ≤ j + 1 := by
          rw [hk, Nat.ceil_le]
          constructor
          · intro h
            exact le_of_mul_le_mul_right (by linarith) hw
          · intro h
            have := mul_le_mul_of_nonneg_right h hw.le
            linarith
        rw [a1, a2]
        omega
      simp only [hiff]
      rw [Finset.sum_ite_eq', if_pos (Finset.mem_range.2 (by omega))]
      omega
    · rw [if_neg (by simpa using hm)]
      have : ∀ j ∈ Finset.range n, (if mn + j * w < v ∧ v ≤ mn + (j + 1 : ℕ) * w then 1 else 0) = 0 := by
        intro j _
        rw [if_neg]
        rintro ⟨h1, _⟩
        have : 0 ≤ (j : ℝ) * w := by positivity
        exact hm (by linarith)
      rw [Finset.sum_congr rfl this]
      simp

theorem sum_snd {pts : List (ℝ × ℕ)} {n : ℕ} (f : ℕ → ℝ) (c : ℕ → ℕ) (hl : pts.length = n)
    (h : ∀ j < n, pts[j]? = some (f j, c j)) : (pts.map Prod.snd).sum = ∑ j ∈ Finset.range n, c j := by
  have : pts = (List.range n).map fun j => (f j, c j) := by
    apply List.ext_getElem?
    intro j
    by_cases hj : j < n
    · rw [h j hj, List.getElem?_map, List.getElem?_range hj]
      rfl
    · rw [List.getElem?_eq_none (by omega), List.getElem?_eq_none (by simp; omega)]
  rw [this, List.map_map, Finset.sum_range, Fin.sum_univ_def]
  congr 1
  rw [← List.map_coe_finRange_eq_range, List.map_map]
  rfl

theorem sum_zero {pts : List (ℝ × ℕ)} (h : ∀ (j : ℕ) (p : ℝ × ℕ), pts[j]? = some p → p.2 = 0) : (pts.map Prod.snd).sum = 0 := by
  rw [List.sum_eq_zero]
  intro x hx
  obtain ⟨p, hp, rfl⟩ := List.mem_map.1 hx
  obtain ⟨j, hj⟩ := List.mem_iff_getElem?.1 hp
  exact h j p hj

end VelocityHist

open VelocityHist

open Classical in
/-- **C110 (partial)** The histogram: with the lowest and the highest speed `mn < mx` and at least two segments, the point number
`j` but the last is at the speed `mn + j w`, `w = (mx - mn) / (segments - 1)`, and shows the number of macroparticles
faster than that and not faster than the next; the last shows zero; together they show each macroparticle that is faster
than the slowest once.  The slowest are not shown: `C110_slowest_violated`. -/
theorem C110_histogram_partial (segments : ℕ) (hs : 2 ≤ segments) (data : List ℝ) (mn mx : ℝ) (hmn : mn ∈ data)
    (hle : ∀ v ∈ data, mn ≤ v) (hmx : mx ∈ data) (hge : ∀ v ∈ data, v ≤ mx) (hlt : mn < mx) (w : ℝ)
    (hw : w = (mx - mn) / ((segments : ℝ) - 1)) :
    ∃ pts, velocityHistogram segments data = some pts ∧ pts.length = segments ∧
      (∀ j, j + 1 < segments → pts[j]? = some (mn + j * w, (data.filter fun v => mn + j * w < v ∧ v ≤ mn + (j + 1) * w).length)) ∧
      pts[segments - 1]? = some (mx, 0) ∧
      (pts.map Prod.snd).sum = (data.filter fun v => mn < v).length := by
  obtain ⟨pts, h1, h2, h3⟩ := points hs hmn hle hmx hge
  rw [← hw] at h3
  have hs1 : ((segments - 1 : ℕ) : ℝ) = (segments : ℝ) - 1 := by
    rw [Nat.cast_sub (by omega), Nat.cast_one]
  have hpos : (0 : ℝ) < (segments : ℝ) - 1 := by
    rw [← hs1]
    exact_mod_cast (show 0 < segments - 1 by omega)
  have hmxw : mn + ((segments - 1 : ℕ) : ℝ) * w = mx := by
    rw [hw, hs1]
    field_simp
    ring
  refine ⟨pts, h1, h2, fun j hj => ?_, ?_, ?_⟩
  · rw [h3 j (by omega), if_pos (by omega)]
    push_cast
    rfl
  · rw [h3 (segments - 1) (by omega), if_neg (by omega), hmxw]
  · rw [sum_snd _ _ h2 h3]
    obtain ⟨n, rfl⟩ : ∃ n, segments = n + 1 := ⟨segments - 1, by omega⟩
    rw [Finset.sum_range_succ, if_neg (by omega), add_zero]
    have hw0 : 0 < w := by
      rw [hw]
      exact div_pos (by linarith) hpos
    rw [← partition data mn w hw0 n fun v hv => ⟨hle v hv, by
      have := hge v hv
      simp only [Nat.add_sub_cancel] at hmxw
      linarith⟩]
    refine Finset.sum_congr rfl fun j hj => ?_
    rw [if_pos (by have := Finset.mem_range.1 hj; omega)]

/-- Not vacuous: four speeds in three segments -/
example : ∃ pts, velocityHistogram 3 [1, 2, 3, 5] = some pts ∧ (pts.map Prod.snd).sum = 3 ∧ pts[0]? = some (1, 2) := by
  obtain ⟨pts, h1, h2, h3, h4, h5⟩ := C110_histogram_partial 3 (by norm_num) [1, 2, 3, 5] 1 5 (by simp) (by norm_num) (by simp)
    (by norm_num) (by norm_num) 2 (by norm_num)
  refine ⟨pts, h1, ?_, ?_⟩
  · rw [h5]
    norm_num [List.filter_cons]
  · have := h3 0 (by norm_num)
    norm_num [List.filter_cons] at this
    exact this

/-- **C110 violated** Whatever the macroparticles are, the histogram does not show all of them: those with the lowest speed are
in no segment. -/
theorem C110_slowest_violated (segments : ℕ) (hs : 1 ≤ segments) (data : List ℝ) (h0 : data ≠ []) :
    ∃ pts, velocityHistogram segments data = some pts ∧ (pts.map Prod.snd).sum < data.length := by
  classical
  have hlen : 0 < data.length := List.length_pos_iff.2 h0
  obtain ⟨mx, hmx, hge⟩ : ∃ m ∈ data, ∀ v ∈ data, v ≤ m := by
    obtain ⟨m, hm, hm'⟩ := Finset.exists_max_image data.toFinset id (by simpa using h0)
    exact ⟨m, by simpa using hm, fun v hv => hm' v (by simpa using hv)⟩
  obtain ⟨mn, hmn, hle⟩ : ∃ m ∈ data, ∀ v ∈ data, m ≤ v := by
    obtain ⟨m, hm, hm'⟩ := Finset.exists_min_image data.toFinset id (by simpa using h0)
    exact ⟨m, by simpa using hm, fun v hv => hm' v (by simpa using hv)⟩
  rcases Nat.lt_or_ge segments 2 with h1 | h2
  · obtain rfl : segments = 1 := by omega
    refine ⟨[(mn, 0)], ?_, by simpa using hlen⟩
    unfold velocityHistogram
    simp only [npMax_eq hge hmx, npMin_eq hle hmn, Option.bind_eq_bind, Option.bind_some]
    have hlin : linspace mn mx ((1 : ℕ) : ℤ) = some [mn] := by
      unfold linspace
      rw [if_neg (by norm_num), if_pos (by norm_num)]
    rw [hlin, Option.bind_some]
    have : ∀ d : List ℝ, d.foldl (countOne [mn]) [0] = [0] := by
      intro d
      induction d with
      | nil => rfl
      | cons x xs ih => simpa [countOne] using ih
    rw [List.replicate_one, this]
    rfl
  · rcases eq_or_lt_of_le (hle mx hmx) with heq | hlt
    · obtain ⟨pts, h3, h4, h5⟩ := points h2 hmn hle hmx hge
      refine ⟨pts, h3, ?_⟩
      rw [sum_zero]
      · exact hlen
      · intro j p hp
        have hj : j < segments := by
          have := (List.getElem?_eq_some_iff.1 hp).1
          omega
        rw [h5 j hj, Option.some.injEq] at hp
        rw [← hp, ← heq]
        simp only [sub_self, zero_div, mul_zero, add_zero]
        split_ifs
        · rw [List.length_eq_zero_iff, List.filter_eq_nil_iff]
          intro v _ hv
          have := of_decide_eq_true hv
          linarith [this.1, this.2]
        · rfl
    · obtain ⟨pts, h3, _, _, _, h5⟩ := C110_histogram_partial segments h2 data mn mx hmn hle hmx hge hlt _ rfl
      refine ⟨pts, h3, ?_⟩
      rw [h5]
      refine List.length_filter_lt_length_iff_exists.2 ⟨mn, hmn, ?_⟩
      simp

namespace VelocityHist

theorem cell_floor {x shift d : ℝ} (hd : 0 < d) {i : ℕ} (h1 : shift + i * d ≤ x) (h2 : x < shift + (i + 1) * d) :
    ⌊(x - shift) / d - 1⌋ = (i : ℤ) - 1 := by
  rw [Int.floor_eq_iff]
  push_cast
  constructor
  · have : (i : ℝ) ≤ (x - shift) / d := by
      rw [le_div_iff₀ hd]
      linarith
    linarith
  · have : (x - shift) / d < i + 1 := by
      rw [div_lt_iff₀ hd]
      linarith
    linarith

/-- The place from which the subtrahend is taken -/
theorem place {amount : ℕ} (ha : 1 ≤ amount) {x shift d : ℝ} (hd : 0 < d) {i : ℕ} (h1 : shift + i * d ≤ x) (h2 : x < shift + (i + 1) * d) :
    npPlace amount (filterCell amount x shift d) = some (if i = 0 then amount - 1 else min (i - 1) (amount - 1)) := by
  unfold filterCell
  rw [cell_floor hd h1 h2]
  unfold npPlace
  by_cases h0 : i = 0
  · subst h0
    have e : (if ((0 : ℕ) : ℤ) - 1 > (amount : ℤ) - 1 then (amount : ℤ) - 1 else ((0 : ℕ) : ℤ) - 1) = -1 := by
      rw [if_neg (by push_cast; omega)]
      norm_num
    rw [e, if_neg (by omega), if_pos (by omega), if_pos rfl]
    congr 1
    omega
  · rw [if_neg h0]
    by_cases h3 : (i : ℤ) - 1 > (amount : ℤ) - 1
    · rw [if_pos h3, if_pos (by omega)]
      congr 1
      omega
    · rw [if_neg h3, if_pos (by omega)]
      congr 1
      omega

/-- Every place not below the window is in a cell -/
theorem exists_cell {x shift d : ℝ} (hd : 0 < d) (h : shift ≤ x) : ∃ i : ℕ, shift + i * d ≤ x ∧ x < shift + (i + 1) * d := by
  have h0 : 0 ≤ (x - shift) / d := div_nonneg (by linarith) hd.le
  refine ⟨⌊(x - shift) / d⌋₊, ?_, ?_⟩
  · have := Nat.floor_le h0
    rw [le_div_iff₀ hd] at this
    linarith
  · have := Nat.lt_floor_add_one ((x - shift) / d)
    rw [div_lt_iff₀ hd] at this
    linarith

end VelocityHist

/-- **C110 violated** The directed velocity is not removed: if there is one macroparticle in the window, which is inside a cell,
it keeps its whole velocity, as the subtrahend is taken from the cell before. -/
theorem C110_directed_violated (g : FilterGrid) (hr : 2 ≤ g.r_grid_amount) (hz : 1 ≤ g.z_grid_amount) (hdr : 0 < g.dr) (hdz : 0 < g.dz)
    (p : MpRow) (i : ℕ) (h1 : g.r_shift + i * g.dr < p.pos_r) (h2 : p.pos_r < g.r_shift + (i + 1) * g.dr) (h3 : g.z_shift ≤ p.pos_z) :
    filterAll g [p] = some [p] := by
  classical
  obtain ⟨j, h4, h5⟩ := exists_cell hdz h3
  obtain ⟨a, ha⟩ : ∃ a, a = (if i = 0 then g.r_grid_amount - 1 else min (i - 1) (g.r_grid_amount - 1)) := ⟨_, rfl⟩
  have hai : a ≠ i := by
    rw [ha]
    split_ifs <;> omega
  have hsub : ∀ (f : MpRow → ℝ) (b : ℕ), subtrahend g f [p] a b = 0 := by
    intro f b
    have hn : ¬inFilterCell g a b p := by
      rintro ⟨q1, q2, _⟩
      rcases lt_or_gt_of_ne hai with h | h
      · have : (a : ℝ) + 1 ≤ i := by exact_mod_cast h
        have := mul_le_mul_of_nonneg_right this hdr.le
        linarith
      · have : (i : ℝ) + 1 ≤ a := by exact_mod_cast h
        have := mul_le_mul_of_nonneg_right this hdr.le
        linarith
    unfold subtrahend
    rw [List.filter_eq_nil_iff.2 (by simpa using hn)]
    simp
  have hone : filterOne g [p] p = some p := by
    unfold filterOne
    rw [place (by omega) hdr h1.le h2, place hz hdz h4 h5, ← ha]
    simp only [Option.bind_eq_bind, Option.bind_some, hsub, sub_zero]
  simp [filterAll, hone]

/-- Not vacuous: the window of the notebook, a macroparticle with the speed of a thirtieth of that of light -/
example : ∃ p : MpRow, p.v_z = 1e7 ∧ filterAll (filterGrid 64 320 96 732 0.1 0.4 256 1024) [p] = some [p] := by
  refine ⟨⟨65.5 * (0.1 / 256), 321.5 * (0.4 / 1024), 0, 0, 1e7⟩, rfl, ?_⟩
  refine C110_directed_violated _ ?_ ?_ ?_ ?_ _ 1 ?_ ?_ ?_ <;> norm_num [filterGrid]

/-- **C110 (partial)** What is right of the removal of the directed velocity: for macroparticles not below the window it does not
fail and does not move them, and the difference of the velocities of two macroparticles in one cell stays the same. -/
theorem C110_relative_partial (g : FilterGrid) (hr : 1 ≤ g.r_grid_amount) (hz : 1 ≤ g.z_grid_amount) (hdr : 0 < g.dr) (hdz : 0 < g.dz)
    (ps : List MpRow) (hps : ∀ p ∈ ps, g.r_shift ≤ p.pos_r ∧ g.z_shift ≤ p.pos_z) :
    ∃ qs, filterAll g ps = some qs ∧ qs.length = ps.length ∧
      ∀ (m n : ℕ) (p q : MpRow) (i j : ℕ), ps[m]? = some p → ps[n]? = some q →
        (∀ x ∈ [p, q], g.r_shift + i * g.dr ≤ x.pos_r ∧ x.pos_r < g.r_shift + (i + 1) * g.dr ∧
          g.z_shift + j * g.dz ≤ x.pos_z ∧ x.pos_z < g.z_shift + (j + 1) * g.dz) →
        ∃ p' q', qs[m]? = some p' ∧ qs[n]? = some q' ∧ p'.pos_r = p.pos_r ∧ p'.pos_z = p.pos_z ∧
          p'.v_r - q'.v_r = p.v_r - q.v_r ∧ p'.v_phi - q'.v_phi = p.v_phi - q.v_phi ∧ p'.v_z - q'.v_z = p.v_z - q.v_z := by
  have hsome : ∀ p ∈ ps, ∃ q, filterOne g ps p = some q := by
    intro p hp
    obtain ⟨i, a1, a2⟩ := exists_cell hdr (hps p hp).1
    obtain ⟨j, a3, a4⟩ := exists_cell hdz (hps p hp).2
    unfold filterOne
    rw [place hr hdr a1 a2, place hz hdz a3 a4]
    exact ⟨_, rfl⟩
  have hmap : ∀ l : List MpRow, (∀ p ∈ l, ∃ q, filterOne g ps p = some q) →
      ∃ qs, l.mapM (filterOne g ps) = some qs ∧ qs.length = l.length ∧ ∀ (m : ℕ) (p : MpRow), l[m]? = some p → ∃ q, qs[m]? = some q ∧ filterOne g ps p = some q := by
    intro l
    induction l with
    | nil => exact fun _ => ⟨[], by simp⟩
    | cons x l ih =>
      intro h
      obtain ⟨y, hy⟩ := h x List.mem_cons_self
      obtain ⟨qs, b1, b2, b3⟩ := ih fun p hp => h p (List.mem_cons_of_mem _ hp)
      refine ⟨y :: qs, by simp [List.mapM_cons, hy, b1], by simp [b2], ?_⟩
      intro m p hm
      cases m with
      | zero =>
        simp only [List.getElem?_cons_zero, Option.some.injEq] at hm
        subst hm
        exact ⟨y, rfl, hy⟩
      | succ m => exact b3 m p (by simpa using hm)
  obtain ⟨qs, b1, b2, b3⟩ := hmap ps hsome
  refine ⟨qs, b1, b2, fun m n p q i j hp hq hc => ?_⟩
  obtain ⟨p', c1, c2⟩ := b3 m p hp
  obtain ⟨q', c3, c4⟩ := b3 n q hq
  obtain ⟨d1, d2, d3, d4⟩ := hc p (by simp)
  obtain ⟨e1, e2, e3, e4⟩ := hc q (by simp)
  unfold filterOne at c2 c4
  rw [place hr hdr d1 d2, place hz hdz d3 d4] at c2
  rw [place hr hdr e1 e2, place hz hdz e3 e4] at c4
  simp only [Option.bind_eq_bind, Option.bind_some, Option.some.injEq] at c2 c4
  refine ⟨p', q', c1, c3, ?_, ?_, ?_, ?_, ?_⟩ <;> rw [← c2] <;> (try rw [← c4]) <;> simp

/-- Not vacuous: two macroparticles in one cell of the window of the notebook -/
example : ∃ (g : FilterGrid) (p q : MpRow), 1 ≤ g.r_grid_amount ∧ 1 ≤ g.z_grid_amount ∧ 0 < g.dr ∧ 0 < g.dz ∧ p.v_z ≠ q.v_z ∧
    ∀ x ∈ [p, q], g.r_shift + (1 : ℕ) * g.dr ≤ x.pos_r ∧ x.pos_r < g.r_shift + ((1 : ℕ) + 1) * g.dr ∧
      g.z_shift + (1 : ℕ) * g.dz ≤ x.pos_z ∧ x.pos_z < g.z_shift + ((1 : ℕ) + 1) * g.dz := by
  refine ⟨filterGrid 64 320 96 732 0.1 0.4 256 1024, ⟨65.5 * (0.1 / 256), 321.5 * (0.4 / 1024), 0, 0, 1e7⟩,
    ⟨65.6 * (0.1 / 256), 321.5 * (0.4 / 1024), 0, 0, 2e7⟩, ?_, ?_, ?_, ?_, ?_, ?_⟩ <;> norm_num [filterGrid]

end Verif
