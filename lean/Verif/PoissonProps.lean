import Verif.Poisson
import Verif.FftPi
import Verif.YeePhysics
import Mathlib.Tactic.FieldSimp

/-!
# C42: the Poisson solver
-/

namespace Verif

/-! ## The sweep -/

/-- coefficients of the forward sweep -/
noncomputable def alphaS (b : ℝ) : ℕ → ℝ
  | 0 => 0
  | 1 => 4 / (2 + b)
  | i + 2 => (1 + 1 / (2 * ((i + 1 : ℕ) : ℝ))) / (b - alphaS b (i + 1) * (1 - 1 / (2 * ((i + 1 : ℕ) : ℝ))))

noncomputable def betaS (b : ℝ) (d : ℕ → ℝ) : ℕ → ℝ
  | 0 => 0
  | 1 => d 0 / (2 + b)
  | i + 2 => (d (i + 1) + betaS b d (i + 1) * (1 - 1 / (2 * ((i + 1 : ℕ) : ℝ)))) /
      (b - alphaS b (i + 1) * (1 - 1 / (2 * ((i + 1 : ℕ) : ℝ))))

theorem alphaS_bounds {b : ℝ} (hb : 2 ≤ b) (i : ℕ) : 0 < alphaS b (i + 1) ∧ alphaS b (i + 1) ≤ 1 := by
  induction i with
  | zero =>
    have : (0 : ℝ) < 2 + b := by linarith
    refine ⟨by unfold alphaS; positivity, ?_⟩
    unfold alphaS
    rw [div_le_one this]; linarith
  | succ i ih =>
    have hi : (1 : ℝ) ≤ ((i + 1 : ℕ) : ℝ) := by push_cast; linarith [Nat.cast_nonneg (α := ℝ) i]
    have h2 : 0 < 1 / (2 * ((i + 1 : ℕ) : ℝ)) := by positivity
    have h3 : 1 / (2 * ((i + 1 : ℕ) : ℝ)) ≤ 1 / 2 := by
      rw [div_le_div_iff₀ (by positivity) (by norm_num)]; linarith
    have hden : 1 + 1 / (2 * ((i + 1 : ℕ) : ℝ)) ≤
        b - alphaS b (i + 1) * (1 - 1 / (2 * ((i + 1 : ℕ) : ℝ))) := by nlinarith [ih.1, ih.2]
    have hpos : 0 < b - alphaS b (i + 1) * (1 - 1 / (2 * ((i + 1 : ℕ) : ℝ))) := by linarith
    rw [alphaS]
    refine ⟨div_pos (by linarith) hpos, ?_⟩
    rw [div_le_one hpos]; exact hden

theorem sweep_den_pos {b : ℝ} (hb : 2 ≤ b) (i : ℕ) :
    0 < b - alphaS b (i + 1) * (1 - 1 / (2 * ((i + 1 : ℕ) : ℝ))) := by
  have ih := alphaS_bounds hb i
  have hi : (1 : ℝ) ≤ ((i + 1 : ℕ) : ℝ) := by push_cast; linarith [Nat.cast_nonneg (α := ℝ) i]
  have h2 : 0 < 1 / (2 * ((i + 1 : ℕ) : ℝ)) := by positivity
  have h3 : 1 / (2 * ((i + 1 : ℕ) : ℝ)) ≤ 1 / 2 := by
    rw [div_le_div_iff₀ (by positivity) (by norm_num)]; linarith
  nlinarith [ih.1, ih.2]

theorem ldN_ok {n : ℕ} {f : ℕ → ℝ} {i : ℕ} (h : i < n) : ldN n f (i : ℤ) = some (f i) := by
  unfold ldN
  rw [if_pos (by omega)]
  simp

theorem stN_ok {n : ℕ} {f : ℕ → ℝ} {i : ℕ} (h : i < n) (v : ℝ) :
    stN n f (i : ℤ) v = some (Function.update f i v) := by
  unfold stN
  rw [if_pos (by omega)]
  simp

theorem divN_ok {x y : ℝ} (h : y ≠ 0) : divN x y = some (x / y) := by
  unfold divN; rw [if_neg h]

/-- the source term of the sweep -/
noncomputable def srcD (G : Geom) (t : ℕ → ℝ) (i : ℕ) : ℝ := G.dr * G.dr * t i / EPSILON0

theorem sweepFwd_fold {G : Geom} {b : ℝ} (hb : 2 ≤ b) (t : ℕ → ℝ) {al be : ℕ → ℝ}
    (h1 : al 1 = alphaS b 1) (h2 : be 1 = betaS b (srcD G t) 1) (m : ℕ) (hm : m + 2 ≤ G.nr) :
    ∃ s : (ℕ → ℝ) × (ℕ → ℝ), (List.range' 1 m).foldlM (sweepFwd G b t) (al, be) = some s ∧
      ∀ i, 1 ≤ i → i ≤ m + 1 → s.1 i = alphaS b i ∧ s.2 i = betaS b (srcD G t) i := by
  induction m with
  | zero =>
    refine ⟨(al, be), rfl, ?_⟩
    intro i hi hi'
    obtain rfl : i = 1 := by omega
    exact ⟨h1, h2⟩
  | succ m ih =>
    obtain ⟨s, hs, hv⟩ := ih (by omega)
    rw [List.range'_1_concat, List.foldlM_append, hs]
    simp only [Option.bind_eq_bind, Option.bind_some, List.foldlM_cons, List.foldlM_nil]
    have e1 := hv (1 + m) (by omega) (by omega)
    have hpos := sweep_den_pos hb m
    rw [show m + 1 = 1 + m by ring] at hpos
    have hc : (2 * ((1 + m : ℕ) : ℝ)) ≠ 0 := by positivity
    have step : sweepFwd G b t s (1 + m) = some (Function.update s.1 (1 + m + 1) (alphaS b (1 + m + 1)),
        Function.update s.2 (1 + m + 1) (betaS b (srcD G t) (1 + m + 1))) := by
      unfold sweepFwd
      have ne : 1 + m ≠ 1 + m + 1 := by omega
      have cast : ((1 + m : ℕ) : ℤ) + 1 = ((1 + m + 1 : ℕ) : ℤ) := by push_cast; ring
      rw [divN_ok hc, ldN_ok (show 1 + m < G.nr by omega), ldN_ok (show 1 + m < G.nr by omega)]
      simp only [Option.bind_eq_bind, Option.bind_some]
      rw [e1.1, divN_ok hpos.ne', cast]
      simp only [Option.bind_some]
      rw [stN_ok (show 1 + m + 1 < G.nr by omega), ldN_ok (show 1 + m < G.nr by omega)]
      simp only [Option.bind_some]
      rw [ldN_ok (show 1 + m < G.nr by omega), Function.update_of_ne ne, e1.1, e1.2]
      simp only [Option.bind_some]
      rw [divN_ok hpos.ne']
      simp only [Option.bind_some]
      rw [stN_ok (show 1 + m + 1 < G.nr by omega)]
      simp only [Option.bind_some]
      rw [show 1 + m + 1 = m + 2 by ring, alphaS, betaS, show m + 1 = 1 + m by ring]
      rfl
    rw [step]
    refine ⟨_, rfl, ?_⟩
    intro i hi hi'
    by_cases e : i = 1 + m + 1
    · subst e; simp
    · simp only [Function.update_of_ne e]
      exact hv i hi (by omega)

theorem sweepBack_fold {G : Geom} (s : (ℕ → ℝ) × (ℕ → ℝ)) (m : ℕ) : ∀ (f : ℕ → ℝ), m + 1 ≤ G.nr →
    ∃ f' : ℕ → ℝ, (List.range m).reverse.foldlM (sweepBack G s) f = some f' ∧
      (∀ i, m ≤ i → f' i = f i) ∧ ∀ i < m, f' i = s.2 (i + 1) + s.1 (i + 1) * f' (i + 1) := by
  induction m with
  | zero => intro f _; exact ⟨f, rfl, fun _ _ => rfl, fun i hi => by omega⟩
  | succ m ih =>
    intro f hm
    rw [List.range_succ, List.reverse_append]
    simp only [List.reverse_cons, List.reverse_nil, List.nil_append, List.singleton_append, List.foldlM_cons]
    have step : sweepBack G s f m = some (Function.update f m (s.2 (m + 1) + s.1 (m + 1) * f (m + 1))) := by
      unfold sweepBack
      have cast : ((m : ℕ) : ℤ) + 1 = ((m + 1 : ℕ) : ℤ) := by push_cast; ring
      rw [cast, ldN_ok (by omega), ldN_ok (by omega), ldN_ok (by omega)]
      simp only [Option.bind_eq_bind, Option.bind_some]
      rw [stN_ok (by omega)]
    rw [step]
    simp only [Option.bind_eq_bind, Option.bind_some]
    obtain ⟨f', hf', h1, h2⟩ := ih (Function.update f m (s.2 (m + 1) + s.1 (m + 1) * f (m + 1))) (by omega)
    refine ⟨f', hf', ?_, ?_⟩
    · intro i hi
      rw [h1 i (by omega), Function.update_of_ne (show i ≠ m by omega)]
    · intro i hi
      by_cases e : i = m
      · subst e
        rw [h1 i (le_refl _), h1 (i + 1) (by omega), Function.update_self,
          Function.update_of_ne (show i + 1 ≠ i by omega)]
      · exact h2 i (by omega)

/-- what the sweep makes of a column -/
def ColSpec (G : Geom) (b : ℝ) (t f : ℕ → ℝ) : Prop :=
  ∀ i < G.nr - 1, f i = betaS b (srcD G t) (i + 1) + alphaS b (i + 1) * f (i + 1)

theorem sweepCol_spec {P : ℝ} {G : Geom} (hG : G.Valid) {k : ℕ} (hb : 2 ≤ sweepB P G k) (t f : ℕ → ℝ)
    (s : (ℕ → ℝ) × (ℕ → ℝ)) :
    ∃ f' s', sweepCol P G k t f s = some (f', s') ∧ f' (G.nr - 1) = f (G.nr - 1) ∧
      ColSpec G (sweepB P G k) t f' := by
  have hnr := hG.nr_ge
  set b := sweepB P G k with hbdef
  have h2b : (2 + b) ≠ 0 := by linarith
  have one : ∀ (g : ℕ → ℝ) v, stN G.nr g 1 v = some (Function.update g 1 v) := by
    intro g v
    have := stN_ok (n := G.nr) (f := g) (i := 1) (by omega) v
    simpa using this
  have zero : ldN G.nr t 0 = some (t 0) := by
    have := ldN_ok (n := G.nr) (f := t) (i := 0) (by omega)
    simpa using this
  obtain ⟨s1, hs1, hv⟩ := sweepFwd_fold (G := G) hb t
    (al := Function.update s.1 1 (4 / (2 + b))) (be := Function.update s.2 1 (G.dr * G.dr * t 0 / EPSILON0 / (2 + b)))
    (by simp [alphaS]) (by simp [betaS, srcD]) (G.nr - 2) (by omega)
  obtain ⟨f', hf', h1, h2⟩ := sweepBack_fold (G := G) s1 (G.nr - 1) f (by omega)
  refine ⟨f', s1, ?_, h1 _ (le_refl _), ?_⟩
  · unfold sweepCol
    rw [← hbdef]
    dsimp only
    rw [zero]
    simp only [Option.bind_eq_bind, Option.bind_some]
    rw [divN_ok h2b]
    simp only [Option.bind_some]
    rw [one, divN_ok h2b]
    simp only [Option.bind_some]
    rw [one]
    simp only [Option.bind_some]
    rw [hs1]
    simp only [Option.bind_some]
    rw [hf']
    rfl
  · intro i hi
    rw [h2 i hi, (hv (i + 1) (by omega) (by omega)).1, (hv (i + 1) (by omega) (by omega)).2]

theorem sweepAll_spec {P : ℝ} {G : Geom} (hG : G.Valid) (hb : ∀ k, 2 ≤ sweepB P G k) (t fi : ℕ → ℕ → ℝ)
    (s : (ℕ → ℝ) × (ℕ → ℝ)) :
    ∃ f s', sweepAll P G t fi s = some (f, s') ∧
      ∀ k < G.nz, f (G.nr - 1) k = fi (G.nr - 1) k ∧
        ColSpec G (sweepB P G k) (fun i => t i k) (fun i => f i k) := by
  unfold sweepAll
  suffices h : ∀ m, ∃ f s', (List.range m).foldlM
      (fun (st : (ℕ → ℕ → ℝ) × (ℕ → ℝ) × (ℕ → ℝ)) k =>
      (sweepCol P G k (fun i => t i k) (fun i => st.1 i k) st.2).map fun r =>
        ((fun i k' => if k' = k then r.1 i else st.1 i k'), r.2)) (fi, s) = some (f, s') ∧
      (∀ k < m, f (G.nr - 1) k = fi (G.nr - 1) k ∧
        ColSpec G (sweepB P G k) (fun i => t i k) (fun i => f i k)) ∧ ∀ k, m ≤ k → ∀ i, f i k = fi i k by
    obtain ⟨f, s', h1, h2, -⟩ := h G.nz
    exact ⟨f, s', h1, h2⟩
  intro m
  induction m with
  | zero => exact ⟨fi, s, rfl, fun k hk => by omega, fun _ _ _ => rfl⟩
  | succ m ih =>
    obtain ⟨f, s', h1, h2, h3⟩ := ih
    obtain ⟨c, s'', hc, hc1, hc2⟩ := sweepCol_spec (P := P) hG (hb m) (fun i => t i m) (fun i => f i m) s'
    rw [List.range_succ, List.foldlM_append, h1]
    simp only [Option.bind_eq_bind, Option.bind_some, List.foldlM_cons, List.foldlM_nil]
    rw [hc]
    refine ⟨_, _, rfl, ?_, ?_⟩
    · intro k hk
      by_cases e : k = m
      · subst e
        simp only [if_true]
        exact ⟨by rw [hc1, h3 k (le_refl _)], hc2⟩
      · simp only [if_neg e]
        exact h2 k (by omega)
    · intro k hk i
      simp only [if_neg (show k ≠ m by omega)]
      exact h3 k (by omega) i

/-- the sweep solves the radial equation of its wave number, on the axis -/
theorem ColSpec.axis {G : Geom} (hG : G.Valid) {b : ℝ} (hb : 2 ≤ b) {t f : ℕ → ℝ} (h : ColSpec G b t f) :
    4 * f 1 - (2 + b) * f 0 = -srcD G t 0 := by
  have hnr := hG.nr_ge
  have := h 0 (by omega)
  have h2 : (2 + b) ≠ 0 := by linarith
  rw [this]
  simp only [zero_add, betaS, alphaS]
  field_simp
  ring

/-- and off the axis -/
theorem ColSpec.interior {G : Geom} {b : ℝ} (hb : 2 ≤ b) {t f : ℕ → ℝ} (h : ColSpec G b t f) {i : ℕ}
    (hi : i + 2 < G.nr) :
    (1 - 1 / (2 * ((i : ℝ) + 1))) * f i - b * f (i + 1) + (1 + 1 / (2 * ((i : ℝ) + 1))) * f (i + 2) =
      -srcD G t (i + 1) := by
  have e0 := h i (by omega)
  have e1 := h (i + 1) (by omega)
  have hd := sweep_den_pos hb i
  rw [betaS, alphaS] at e1
  push_cast at e1 hd
  set a := 1 - 1 / (2 * ((i : ℝ) + 1)) with ha
  set c := 1 + 1 / (2 * ((i : ℝ) + 1)) with hc
  have e1' : f (i + 1) * (b - alphaS b (i + 1) * a) =
      srcD G t (i + 1) + betaS b (srcD G t) (i + 1) * a + c * f (i + 2) := by
    rw [e1, add_mul, div_mul_cancel₀ _ hd.ne', mul_right_comm, div_mul_cancel₀ _ hd.ne']
  rw [e0]
  linear_combination -e1'

/-! ## Specification: the discrete Poisson equation -/

/-- Radial part of the discrete cylindrical Laplace operator at node `(i,k)` -/
noncomputable def lapR (G : Geom) (φ : ℕ → ℕ → ℝ) (i k : ℕ) : ℝ :=
  if i = 0 then 4 * (φ 1 k - φ 0 k) / (G.dr * G.dr)
  else (((i : ℝ) + 1 / 2) * (φ (i + 1) k - φ i k) - ((i : ℝ) - 1 / 2) * (φ i k - φ (i - 1) k)) /
    ((i : ℝ) * (G.dr * G.dr))

/-- Axial part.  Beyond the first and the last node the potential is zero: the grounded planes are one step outside the
grid. -/
noncomputable def lapZ (G : Geom) (φ : ℕ → ℕ → ℝ) (i k : ℕ) : ℝ :=
  ((if k + 1 = G.nz then 0 else φ i (k + 1)) - 2 * φ i k + (if k = 0 then 0 else φ i (k - 1))) / (G.dz * G.dz)

/-! ## Back to real space -/

noncomputable def sineAt (n : ℕ) (F : ℕ → ℝ) (x : ℝ) : ℝ :=
  ∑ j ∈ Finset.range n, F j * Real.sin (Real.pi * (j + 1) * x / (n + 1))

theorem sineSum_eq_at (n : ℕ) (F : ℕ → ℝ) (k : ℕ) : sineSum n F k = sineAt n F ((k : ℝ) + 1) := rfl

theorem sineAt_zero (n : ℕ) (F : ℕ → ℝ) : sineAt n F 0 = 0 := by
  unfold sineAt
  apply Finset.sum_eq_zero
  intro j _
  simp

theorem sineAt_end (n : ℕ) (F : ℕ → ℝ) : sineAt n F ((n : ℝ) + 1) = 0 := by
  unfold sineAt
  apply Finset.sum_eq_zero
  intro j _
  have hn : ((n : ℝ) + 1) ≠ 0 := by positivity
  have : Real.pi * ((j : ℝ) + 1) * ((n : ℝ) + 1) / (n + 1) = ((j + 1 : ℕ) : ℝ) * Real.pi := by
    push_cast; field_simp
  rw [this, Real.sin_nat_mul_pi, mul_zero]

theorem sineAt_neighbours (n : ℕ) (F : ℕ → ℝ) (x : ℝ) :
    sineAt n F (x + 1) + sineAt n F (x - 1) =
      sineAt n (fun j => 2 * Real.cos (Real.pi * ((j : ℝ) + 1) / ((n : ℝ) + 1)) * F j) x := by
  unfold sineAt
  rw [← Finset.sum_add_distrib]
  apply Finset.sum_congr rfl
  intro j _
  have e1 : Real.pi * ((j : ℝ) + 1) * (x + 1) / (n + 1) =
      Real.pi * ((j : ℝ) + 1) * x / (n + 1) + Real.pi * ((j : ℝ) + 1) / ((n : ℝ) + 1) := by ring
  have e2 : Real.pi * ((j : ℝ) + 1) * (x - 1) / (n + 1) =
      Real.pi * ((j : ℝ) + 1) * x / (n + 1) - Real.pi * ((j : ℝ) + 1) / ((n : ℝ) + 1) := by ring
  rw [e1, e2, Real.sin_add, Real.sin_sub]
  ring

theorem sineAt_congr {n : ℕ} {F H : ℕ → ℝ} (h : ∀ j < n, F j = H j) (x : ℝ) : sineAt n F x = sineAt n H x := by
  unfold sineAt
  apply Finset.sum_congr rfl
  intro j hj
  rw [h j (Finset.mem_range.1 hj)]

theorem sineAt_smul (n : ℕ) (c : ℝ) (F : ℕ → ℝ) (x : ℝ) : sineAt n (fun j => c * F j) x = c * sineAt n F x := by
  unfold sineAt
  rw [Finset.mul_sum]
  apply Finset.sum_congr rfl
  intro j _
  ring

theorem sineAt_add (n : ℕ) (F H : ℕ → ℝ) (x : ℝ) :
    sineAt n (fun j => F j + H j) x = sineAt n F x + sineAt n H x := by
  unfold sineAt
  rw [← Finset.sum_add_distrib]
  apply Finset.sum_congr rfl
  intro j _
  ring

theorem sweepB_ge (P : ℝ) (G : Geom) (k : ℕ) : 2 ≤ sweepB P G k := by
  unfold sweepB
  have h1 := Real.cos_le_one (P * ((k : ℝ) + 1) / ((G.nz : ℝ) + 1))
  have h2 : 0 ≤ G.dr * G.dr / (G.dz * G.dz) := div_nonneg (mul_self_nonneg _) (mul_self_nonneg _)
  nlinarith

theorem rowsSine_eq {n p nr : ℕ} (hn : n + 1 = 2 ^ p) {inv : Bool} {a : ℕ → ℕ → ℝ} {res : Option (ℕ → ℕ → ℝ)}
    (h : RowsSine Real.pi nr n inv a res) :
    ∃ b, res = some b ∧ ∀ i < nr, ∀ k < n, b i k = (if inv then 2 / ((n : ℝ) + 1) else 1) * sineSum n (a i) k := by
  rcases h with ⟨i, _, h, -⟩ | ⟨b, hb, -, rfl⟩
  · obtain ⟨y, hy, -⟩ := sineTransform_eq hn h
    cases hy
  · refine ⟨b, rfl, ?_⟩
    intro i hi k hk
    obtain ⟨y, hy, hv⟩ := sineTransform_eq hn (hb i hi)
    cases hy
    exact hv k hk

theorem rowsSine_exists {n p : ℕ} (hn : n + 1 = 2 ^ p) (nr : ℕ) (inv : Bool) (a : ℕ → ℕ → ℝ) :
    ∃ b, RowsSine Real.pi nr n inv a (some b) := by
  have h : ∀ i, ∃ y, SineTransform Real.pi n inv (a i) (some y) := fun i => sineTransform_exists hn inv (a i)
  choose y hy using h
  refine ⟨fun i => if i < nr then y i else a i, Or.inr ⟨_, ?_, ?_, rfl⟩⟩
  · intro i hi; simp only [if_pos hi]; exact hy i
  · intro i hi; simp only [if_neg (by omega : ¬ i < nr)]

/-- All facts about a run of the solver -/
theorem poisson_facts {G : Geom} (hG : G.Valid) {p : ℕ} (hn : G.nz + 1 = 2 ^ p) {rho : ℕ → ℕ → ℝ}
    {o : PoissonOut} {res : Option PoissonOut} (h : PoissonSolve Real.pi G rho o res) :
    ∃ (out : PoissonOut) (t f : ℕ → ℕ → ℝ), res = some out ∧
      out.er = potentialEr G out.fi o.er ∧ out.ez = potentialEz G out.fi o.ez ∧
      (∀ i < G.nr, ∀ k < G.nz, t i k = sineSum G.nz (rho i) k) ∧
      (∀ i < G.nr, ∀ k < G.nz, out.fi i k = 2 / ((G.nz : ℝ) + 1) * sineSum G.nz (f i) k) ∧
      ∀ k < G.nz, f (G.nr - 1) k = o.fi (G.nr - 1) k ∧
        ColSpec G (sweepB Real.pi G k) (fun i => t i k) (fun i => f i k) := by
  obtain ⟨s, r1, hr1, h⟩ := h
  obtain ⟨t, rfl, ht⟩ := rowsSine_eq hn hr1
  rcases h with ⟨h, -⟩ | ⟨t', ht', h⟩
  · cases h
  cases ht'
  obtain ⟨f, s', hf, hfs⟩ := sweepAll_spec hG (sweepB_ge Real.pi G) t o.fi s
  rcases h with ⟨h, -⟩ | ⟨f', s'', hf', r2, hr2, rfl⟩
  · rw [hf] at h; cases h
  · rw [hf] at hf'; cases hf'
    obtain ⟨φ, rfl, hφ⟩ := rowsSine_eq hn hr2
    refine ⟨_, t, f, rfl, rfl, rfl, ?_, ?_, hfs⟩
    · intro i hi k hk; rw [ht i hi k hk]; simp
    · intro i hi k hk
      have := hφ i hi k hk
      simpa using this

theorem poisson_exists {G : Geom} (hG : G.Valid) {p : ℕ} (hn : G.nz + 1 = 2 ^ p) (rho : ℕ → ℕ → ℝ)
    (o : PoissonOut) : ∃ out, PoissonSolve Real.pi G rho o (some out) := by
  obtain ⟨t, ht⟩ := rowsSine_exists hn G.nr false rho
  obtain ⟨f, s', hf, -⟩ := sweepAll_spec hG (sweepB_ge Real.pi G) t o.fi (fun _ => 0, fun _ => 0)
  obtain ⟨φ, hφ⟩ := rowsSine_exists hn G.nr true f
  exact ⟨_, _, _, ht, Or.inr ⟨t, rfl, Or.inr ⟨f, s', hf, _, hφ, rfl⟩⟩⟩

theorem poisson_equation {G : Geom} (hG : G.Valid) {φ t f rho : ℕ → ℕ → ℝ}
    (ht : ∀ i < G.nr, ∀ k < G.nz, t i k = sineSum G.nz (rho i) k)
    (hφ : ∀ i < G.nr, ∀ k < G.nz, φ i k = 2 / ((G.nz : ℝ) + 1) * sineSum G.nz (f i) k)
    (hcol : ∀ k < G.nz, ColSpec G (sweepB Real.pi G k) (fun i => t i k) (fun i => f i k))
    {i k : ℕ} (hi : i + 1 < G.nr) (hk : k < G.nz) :
    lapR G φ i k + lapZ G φ i k = -rho i k / EPSILON0 := by
  have hdr := hG.dr_pos
  have hdz := hG.dz_pos
  have he : EPSILON0 ≠ 0 := by unfold EPSILON0; norm_num
  set n := G.nz with hn
  have hn0 : ((n : ℝ) + 1) ≠ 0 := by positivity
  set s := 2 / ((n : ℝ) + 1) with hs
  set x : ℝ := (k : ℝ) + 1 with hx
  set R := G.dr * G.dr / (G.dz * G.dz) with hR
  have hφx : ∀ i < G.nr, φ i k = s * sineAt n (f i) x := fun i hi => by rw [hφ i hi k hk, sineSum_eq_at]
  -- axial part
  have hz : lapZ G φ i k * (G.dz * G.dz) =
      s * sineAt n (fun j => (2 * Real.cos (Real.pi * ((j : ℝ) + 1) / ((n : ℝ) + 1)) - 2) * f i j) x := by
    unfold lapZ
    rw [div_mul_cancel₀ _ (by positivity), ← hn]
    have e1 : (if k + 1 = n then 0 else φ i (k + 1)) = s * sineAt n (f i) (x + 1) := by
      split_ifs with h
      · have : x + 1 = (n : ℝ) + 1 := by rw [hx, ← h]; push_cast; ring
        rw [this, sineAt_end, mul_zero]
      · rw [hφ i (by omega) (k + 1) (by omega), sineSum_eq_at]
        push_cast; rfl
    have e2 : (if k = 0 then 0 else φ i (k - 1)) = s * sineAt n (f i) (x - 1) := by
      split_ifs with h
      · have : x - 1 = 0 := by rw [hx, h]; push_cast; ring
        rw [this, sineAt_zero, mul_zero]
      · rw [hφ i (by omega) (k - 1) (by omega), sineSum_eq_at, Nat.cast_sub (by omega)]
        rw [hx]; push_cast; congr 2; ring
    have e3 := sineAt_neighbours n (f i) x
    have e4 : sineAt n (fun j => (2 * Real.cos (Real.pi * ((j : ℝ) + 1) / ((n : ℝ) + 1)) - 2) * f i j) x =
        sineAt n (fun j => 2 * Real.cos (Real.pi * ((j : ℝ) + 1) / ((n : ℝ) + 1)) * f i j) x + (-2) * sineAt n (f i) x := by
      rw [← sineAt_smul, ← sineAt_add]
      apply sineAt_congr
      intro j _; ring
    rw [e1, e2, e4, ← e3, hφx i (by omega)]
    ring
  -- source
  have hsrc : sineAt n (fun j => srcD G (fun i => t i j) i) x * s = G.dr * G.dr / EPSILON0 * rho i k := by
    have e1 : sineAt n (fun j => srcD G (fun i => t i j) i) x =
        G.dr * G.dr / EPSILON0 * sineAt n (sineSum n (rho i)) x := by
      rw [← sineAt_smul]
      apply sineAt_congr
      intro j hj
      unfold srcD
      beta_reduce
      rw [ht i (by omega) j hj]
      ring
    have e2 := sineSum_sineSum (n := n) hk (rho i)
    rw [sineSum_eq_at] at e2
    rw [e1, e2, hs]
    field_simp
  have hb : ∀ j, sweepB Real.pi G j = 2 - R * (2 * Real.cos (Real.pi * ((j : ℝ) + 1) / ((n : ℝ) + 1)) - 2) := by
    intro j; unfold sweepB; rw [← hn]; ring
  have key : lapR G φ i k * (G.dr * G.dr) + R * (lapZ G φ i k * (G.dz * G.dz)) =
      -(G.dr * G.dr / EPSILON0 * rho i k) := by
    rw [hz, ← hsrc]
    rcases i with _ | i
    · have hr : lapR G φ 0 k * (G.dr * G.dr) = 4 * (φ 1 k - φ 0 k) := by
        unfold lapR; rw [if_pos rfl, div_mul_cancel₀ _ (by positivity)]
      rw [hr, hφx 1 (by omega), hφx 0 (by omega)]
      have : sineAt n (fun j => srcD G (fun i => t i j) 0) x =
          (-4) * sineAt n (f 1) x + (4 * sineAt n (f 0) x + (-R) *
            sineAt n (fun j => (2 * Real.cos (Real.pi * ((j : ℝ) + 1) / ((n : ℝ) + 1)) - 2) * f 0 j) x) := by
        rw [← sineAt_smul, ← sineAt_smul, ← sineAt_smul, ← sineAt_add, ← sineAt_add]
        apply sineAt_congr
        intro j hj
        have := (hcol j hj).axis hG (sweepB_ge _ _ _)
        rw [hb j] at this
        linear_combination this
      rw [this]; ring
    · have hi1 : ((i : ℝ) + 1) ≠ 0 := by positivity
      have hr : lapR G φ (i + 1) k * (G.dr * G.dr) =
          (1 - 1 / (2 * ((i : ℝ) + 1))) * φ i k - 2 * φ (i + 1) k + (1 + 1 / (2 * ((i : ℝ) + 1))) * φ (i + 2) k := by
        unfold lapR
        rw [if_neg (by omega), Nat.add_sub_cancel]
        push_cast
        field_simp
        ring
      rw [hr, hφx i (by omega), hφx (i + 1) (by omega), hφx (i + 2) (by omega)]
      have : sineAt n (fun j => srcD G (fun i => t i j) (i + 1)) x =
          (-(1 - 1 / (2 * ((i : ℝ) + 1)))) * sineAt n (f i) x + (2 * sineAt n (f (i + 1)) x +
            ((-(1 + 1 / (2 * ((i : ℝ) + 1)))) * sineAt n (f (i + 2)) x + (-R) *
            sineAt n (fun j => (2 * Real.cos (Real.pi * ((j : ℝ) + 1) / ((n : ℝ) + 1)) - 2) * f (i + 1) j) x)) := by
        rw [← sineAt_smul, ← sineAt_smul, ← sineAt_smul, ← sineAt_smul, ← sineAt_add, ← sineAt_add, ← sineAt_add]
        apply sineAt_congr
        intro j hj
        have := (hcol j hj).interior (sweepB_ge _ _ _) (i := i) (by omega)
        rw [hb j] at this
        linear_combination this
      rw [this]; ring
  have hR' : R * (lapZ G φ i k * (G.dz * G.dz)) = lapZ G φ i k * (G.dr * G.dr) := by
    rw [hR]; field_simp
  rw [hR', ← add_mul] at key
  have hd : G.dr * G.dr ≠ 0 := by positivity
  apply mul_right_cancel₀ hd
  rw [key]
  ring

/-! ## C42 -/

/-- **C42** (the axial walls are the missing part, see `C42_walls_violated`).  Whenever the number of axial nodes is
one below a power of two, every run of the solver, started with the potential of the outer wall set to zero as the
start of the program does, ends normally with a potential which is zero on the outer wall and satisfies the discrete
Poisson equation at every other node, for every charge density.  The grounded axial planes of this equation are one step
outside the grid. -/
theorem C42_poisson_partial {G : Geom} (hG : G.Valid) {p : ℕ} (hn : G.nz + 1 = 2 ^ p) (rho : ℕ → ℕ → ℝ)
    (o : PoissonOut) :
    (∃ res, PoissonSolve Real.pi G rho { o with fi := setFiOnZ G o.fi } res) ∧
    ∀ res, PoissonSolve Real.pi G rho { o with fi := setFiOnZ G o.fi } res →
      ∃ out, res = some out ∧ (∀ k < G.nz, out.fi (G.nr - 1) k = 0) ∧
        ∀ i k, i < G.nr - 1 → k < G.nz → lapR G out.fi i k + lapZ G out.fi i k = -rho i k / EPSILON0 := by
  constructor
  · exact (poisson_exists hG hn rho _).elim fun out h => ⟨some out, h⟩
  · intro res h
    obtain ⟨out, t, f, rfl, -, -, ht, hφ, hf⟩ := poisson_facts hG hn h
    refine ⟨out, rfl, ?_, ?_⟩
    · intro k hk
      have hnr := hG.nr_ge
      rw [hφ (G.nr - 1) (by omega) k hk, sineSum_eq_at]
      have : sineAt G.nz (f (G.nr - 1)) ((k : ℝ) + 1) = sineAt G.nz (fun j => 0 * f (G.nr - 1) j) ((k : ℝ) + 1) := by
        apply sineAt_congr
        intro j hj
        rw [(hf j hj).1]
        unfold setFiOnZ
        simp [hj]
      rw [this, sineAt_smul]; ring
    · intro i k hi hk
      exact poisson_equation hG ht hφ (fun k hk => (hf k hk).2) (by omega) hk

/-- **C42** The field computed from the potential satisfies Gauss's law with the given charge at every node that has
both axial neighbours in the grid, including the axis: it is a start from which C10 applies with zero defect. -/
theorem C42_gauss {G : Geom} (hG : G.Valid) {p : ℕ} (hn : G.nz + 1 = 2 ^ p) {rho : ℕ → ℕ → ℝ} {o out : PoissonOut}
    (h : PoissonSolve Real.pi G rho o (some out)) {F : Fields}
    (hr : ∀ i k : ℕ, F .er i k = out.er i k) (hz : ∀ i k : ℕ, F .ez i k = out.ez i k)
    {i k : ℕ} (hi : i < G.nr - 1) (hk : 1 ≤ k) (hk' : k < G.nz - 1) :
    gaussDefect G 1 F (fun a b => rho a.toNat b.toNat) i k = 0 := by
  obtain ⟨out', t, f, e, her, hez, ht, hφ, hf⟩ := poisson_facts hG hn h
  cases e
  have eq := poisson_equation hG ht hφ (fun k hk => (hf k hk).2) (i := i) (k := k) (by omega) (by omega)
  have hdr := hG.dr_pos
  have hdz := hG.dz_pos
  have he : EPSILON0 ≠ 0 := by unfold EPSILON0; norm_num
  have hpi := PI_pos
  obtain ⟨k, rfl⟩ : ∃ k', k = k' + 1 := ⟨k - 1, by omega⟩
  have hz1 : F .ez i ((k + 1 : ℕ) : ℤ) = (out.fi i (k + 1) - out.fi i (k + 2)) / G.dz := by
    rw [hz, hez]; unfold potentialEz; rw [if_pos (by omega)]
  have hz0 : F .ez i (((k + 1 : ℕ) : ℤ) - 1) = (out.fi i k - out.fi i (k + 1)) / G.dz := by
    rw [show ((k + 1 : ℕ) : ℤ) - 1 = (k : ℤ) by push_cast; ring, hz, hez]
    unfold potentialEz; rw [if_pos (by omega)]
  have hlz : lapZ G out.fi i (k + 1) = (out.fi i (k + 2) - 2 * out.fi i (k + 1) + out.fi i k) / (G.dz * G.dz) := by
    unfold lapZ; rw [if_neg (by omega), if_neg (by omega), Nat.add_sub_cancel]
  have hr1 : F .er i ((k + 1 : ℕ) : ℤ) = (out.fi i (k + 1) - out.fi (i + 1) (k + 1)) / G.dr := by
    rw [hr, her]; unfold potentialEr; rw [if_pos (by omega)]
  have hrho : rho i (k + 1) = -EPSILON0 * (lapR G out.fi i (k + 1) + lapZ G out.fi i (k + 1)) := by
    rw [eq]; field_simp
  unfold gaussDefect netOutflow
  rw [hz1, hz0, hr1]
  simp only [Int.toNat_natCast]
  rw [hrho, hlz]
  rcases i with _ | i
  · unfold lapR
    rw [if_pos rfl]
    have hv : nodeVolume G ((0 : ℕ) : ℤ) = CYL_VOL G.dz G.dr := by
      rw [Nat.cast_zero]; exact nodeVolume_zero G hG
    rw [hv, max_eq_right (show (0 : ℝ) ≤ ((((0 : ℕ) : ℤ) : ℝ) + 1 / 2) * G.dr by push_cast; positivity),
      max_eq_left (show ((((0 : ℕ) : ℤ) : ℝ) - 1 / 2) * G.dr ≤ 0 by push_cast; linarith)]
    unfold CYL_VOL
    push_cast
    field_simp
    ring
  · have hr0 : F .er (((i + 1 : ℕ) : ℤ) - 1) ((k + 1 : ℕ) : ℤ) = (out.fi i (k + 1) - out.fi (i + 1) (k + 1)) / G.dr := by
      rw [show ((i + 1 : ℕ) : ℤ) - 1 = (i : ℤ) by push_cast; ring, hr, her]
      unfold potentialEr; rw [if_pos (by omega)]
    unfold lapR
    rw [if_neg (by omega), hr0, nodeVolume_pos_idx G hG (by push_cast; omega),
      max_eq_right (show (0 : ℝ) ≤ ((((i + 1 : ℕ) : ℤ) : ℝ) + 1 / 2) * G.dr by push_cast; positivity),
      max_eq_right (show (0 : ℝ) ≤ ((((i + 1 : ℕ) : ℤ) : ℝ) - 1 / 2) * G.dr by
        push_cast
        have : (0 : ℝ) ≤ (i : ℝ) + 1 - 1 / 2 := by linarith [Nat.cast_nonneg (α := ℝ) i]
        positivity)]
    unfold CELL_VOLUME
    rw [Nat.add_sub_cancel]
    push_cast
    field_simp
    ring

theorem betaS_nonneg {b : ℝ} (hb : 2 ≤ b) {d : ℕ → ℝ} {m : ℕ} (hd : ∀ i < m, 0 ≤ d i) (i : ℕ) (hi : i < m) :
    0 ≤ betaS b d (i + 1) := by
  induction i with
  | zero => unfold betaS; exact div_nonneg (hd 0 hi) (by linarith)
  | succ i ih =>
    rw [betaS]
    have h1 : (1 : ℝ) / (2 * ((i + 1 : ℕ) : ℝ)) ≤ 1 / 2 := by
      have hi : (1 : ℝ) ≤ ((i + 1 : ℕ) : ℝ) := by push_cast; linarith [Nat.cast_nonneg (α := ℝ) i]
      rw [div_le_div_iff₀ (by positivity) (by norm_num)]; linarith
    refine div_nonneg (add_nonneg (hd _ hi) (mul_nonneg (ih (by omega)) (by linarith))) (sweep_den_pos hb i).le

theorem betaS_zero (b : ℝ) {d : ℕ → ℝ} {m : ℕ} (hd : ∀ i < m, d i = 0) (i : ℕ) (hi : i < m) :
    betaS b d (i + 1) = 0 := by
  induction i with
  | zero => unfold betaS; rw [hd 0 hi, zero_div]
  | succ i ih =>
    rw [betaS, hd _ hi, ih (by omega)]
    simp

theorem ColSpec.nonneg {G : Geom} {b : ℝ} (hb : 2 ≤ b) {t f : ℕ → ℝ} (h : ColSpec G b t f)
    (ht : ∀ i < G.nr - 1, 0 ≤ srcD G t i) (htop : f (G.nr - 1) = 0) (m : ℕ) (hm : m ≤ G.nr - 1) :
    0 ≤ f (G.nr - 1 - m) := by
  induction m with
  | zero => rw [Nat.sub_zero, htop]
  | succ m ih =>
    have := ih (by omega)
    rw [h _ (by omega)]
    have e : G.nr - 1 - (m + 1) + 1 = G.nr - 1 - m := by omega
    have hbt := betaS_nonneg hb ht (G.nr - 1 - (m + 1)) (by omega)
    have hal := (alphaS_bounds hb (G.nr - 1 - (m + 1))).1
    rw [e] at *
    positivity

theorem ColSpec.zero {G : Geom} {b : ℝ} {t f : ℕ → ℝ} (h : ColSpec G b t f)
    (ht : ∀ i < G.nr - 1, srcD G t i = 0) (htop : f (G.nr - 1) = 0) (m : ℕ) (hm : m ≤ G.nr - 1) :
    f (G.nr - 1 - m) = 0 := by
  induction m with
  | zero => rw [Nat.sub_zero, htop]
  | succ m ih =>
    have := ih (by omega)
    rw [h _ (by omega), betaS_zero b ht _ (by omega)]
    have e : G.nr - 1 - (m + 1) + 1 = G.nr - 1 - m := by omega
    rw [e, this]; ring

/-- **C42** The potential is not zero on the axial walls: on every admissible grid there is a charge density for which
every run ends with a positive potential at every node of the axis, the two wall nodes `k = 0` and `k = nz - 1`
included. -/
theorem C42_walls_violated {G : Geom} (hG : G.Valid) {p : ℕ} (hn : G.nz + 1 = 2 ^ p) :
    ∃ rho : ℕ → ℕ → ℝ, ∀ o out : PoissonOut, PoissonSolve Real.pi G rho { o with fi := setFiOnZ G o.fi } (some out) →
      0 < out.fi 0 0 ∧ 0 < out.fi 0 (G.nz - 1) := by
  let δ : ℕ → ℝ := fun j => if j = 0 then 1 else 0
  let rho : ℕ → ℕ → ℝ := fun i k => if i = 0 then sineSum G.nz δ k else 0
  refine ⟨rho, ?_⟩
  intro o out h
  obtain ⟨out', t, f, e, -, -, ht, hφ, hf⟩ := poisson_facts hG hn h
  cases e
  have hnr := hG.nr_ge
  have hnz := hG.nz_ge
  have hdr := hG.dr_pos
  have hep : 0 < EPSILON0 := by unfold EPSILON0; norm_num
  have htop : ∀ k < G.nz, f (G.nr - 1) k = 0 := by
    intro k hk
    rw [(hf k hk).1]
    unfold setFiOnZ
    simp [hk]
  have ht0 : ∀ k < G.nz, t 0 k = ((G.nz : ℝ) + 1) / 2 * δ k := by
    intro k hk
    rw [ht 0 (by omega) k hk]
    exact sineSum_sineSum hk δ
  have hti : ∀ i, i ≠ 0 → i < G.nr → ∀ k < G.nz, t i k = 0 := by
    intro i h0 hi k hk
    rw [ht i hi k hk]
    unfold sineSum
    apply Finset.sum_eq_zero
    intro j _
    simp [rho, h0]
  have f0k : ∀ k < G.nz, k ≠ 0 → f 0 k = 0 := by
    intro k hk h0
    have := (hf k hk).2.zero (by
      intro i hi
      unfold srcD
      by_cases hi0 : i = 0
      · subst hi0
        beta_reduce
        rw [ht0 k hk]; simp [δ, h0]
      · beta_reduce
        rw [hti i hi0 (by omega) k hk]; simp) (htop k hk) (G.nr - 1) (le_refl _)
    simpa using this
  have f00 : 0 < f 0 0 := by
    have hc := (hf 0 (by omega)).2
    have hb := sweepB_ge Real.pi G 0
    have src : ∀ i < G.nr - 1, 0 ≤ srcD G (fun i => t i 0) i := by
      intro i hi
      unfold srcD
      by_cases hi0 : i = 0
      · subst hi0
        beta_reduce
        rw [ht0 0 (by omega)]; simp only [δ, if_true]; positivity
      · beta_reduce
        rw [hti i hi0 (by omega) 0 (by omega)]; simp
    have h1 := hc.nonneg hb src (htop 0 (by omega)) (G.nr - 2) (by omega)
    have e1 : G.nr - 1 - (G.nr - 2) = 1 := by omega
    rw [e1] at h1
    have h0 := hc 0 (by omega)
    beta_reduce at h0 h1
    rw [h0]
    have hal := (alphaS_bounds hb 0).1
    have hbe : 0 < betaS (sweepB Real.pi G 0) (srcD G fun i => t i 0) (0 + 1) := by
      simp only [zero_add, betaS]
      apply div_pos _ (by linarith)
      unfold srcD
      beta_reduce
      rw [ht0 0 (by omega)]; simp only [δ, if_true]; positivity
    have := mul_nonneg hal.le h1
    linarith
  have hval : ∀ k < G.nz, 0 < out.fi 0 k := by
    intro k hk
    rw [hφ 0 (by omega) k hk]
    unfold sineSum
    rw [Finset.sum_eq_single_of_mem 0 (Finset.mem_range.2 (by omega))]
    · have : 0 < Real.sin (Real.pi * (((0 : ℕ) : ℝ) + 1) * (k + 1) / (G.nz + 1)) := by
        apply Real.sin_pos_of_pos_of_lt_pi
        · have := Real.pi_pos
          push_cast; positivity
        · have := Real.pi_pos
          have hk' : (k : ℝ) + 1 < G.nz + 1 := by exact_mod_cast Nat.succ_lt_succ hk
          rw [div_lt_iff₀ (by positivity)]
          push_cast
          nlinarith
      positivity
    · intro j hj h0
      rw [f0k j (Finset.mem_range.1 hj) h0, zero_mul]
  exact ⟨hval 0 (by omega), hval _ (by omega)⟩

/-- **C42** On every grid whose number of axial nodes is not one below a power of two every run of the solver
accesses memory outside its buffers. -/
theorem C42_other_grids_fault {P : ℝ} {G : Geom} (hG : G.Valid) (hn : ∀ p, G.nz + 1 ≠ 2 ^ p) {rho : ℕ → ℕ → ℝ}
    {o : PoissonOut} {res : Option PoissonOut} (h : PoissonSolve P G rho o res) : res = none := by
  have hnr := hG.nr_ge
  obtain ⟨s, r1, hr1, h⟩ := h
  have : r1 = none := by
    rcases hr1 with ⟨i, _, _, h⟩ | ⟨b, hb, _, _⟩
    · exact h
    · have := C41_sine_other_lengths_fault hn (hb 0 (by omega))
      cases this
  subst this
  rcases h with ⟨-, h⟩ | ⟨t, ht, -⟩
  · exact h
  · cases ht

/-- **C42** The solver with the other boundary condition is not usable on any grid of three axial nodes or more: its
first transform writes outside its buffer. -/
theorem C42_neumann_violated {P : ℝ} {G : Geom} (hG : G.Valid) (hz : 3 ≤ G.nz) (rho : ℕ → ℕ → ℝ) :
    (∃ res, NeumannStart P G rho res) ∧ ∀ res, NeumannStart P G rho res → res = none := by
  have hnr := hG.nr_ge
  constructor
  · obtain ⟨res, h⟩ := (C41_cosine_violated (P := P) hz (inv := false) (a := rho 0)).1
    have := (C41_cosine_violated (P := P) hz (inv := false) (a := rho 0)).2 res h
    subst this
    exact ⟨none, Or.inl ⟨0, by omega, h, rfl⟩⟩
  · intro res h
    rcases h with ⟨i, _, _, h⟩ | ⟨b, hb, _, _⟩
    · exact h
    · have := (C41_cosine_violated (P := P) hz).2 _ (hb 0 (by omega))
      cases this

/-- a grid of 4 x 7 nodes meets the hypotheses: the solver ends normally there -/
example (rho : ℕ → ℕ → ℝ) (o : PoissonOut) :
    ∃ G out, G.Valid ∧ G.nr = 4 ∧ G.nz = 7 ∧ PoissonSolve Real.pi G rho o (some out) := by
  obtain ⟨G, -, hG, -, -, h1, h2⟩ := mkGeom_valid (rs := 3) (zs := 6) (ngr := 4) (ngz := 7) (by norm_num) (by norm_num)
    (by norm_num) (by norm_num)
  obtain ⟨out, h⟩ := poisson_exists hG (p := 3) (by rw [h2]; norm_num) rho o
  exact ⟨G, out, hG, h1, h2, h⟩

end Verif
