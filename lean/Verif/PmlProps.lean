import Verif.Pml

/-!
# The absorbing layer is well formed (C46)
-/

namespace Verif

/-- Admissible layer parameters -/
structure PmlCfg.Ok (c : PmlCfg) : Prop where
  l1 : 0 ≤ c.l1
  l2 : 0 ≤ c.l2
  l3 : 0 ≤ c.l3
  s1 : 0 ≤ c.s1
  s12 : c.s1 ≤ c.s2

theorem layer_len {d x : ℝ} (hd : 0 < d) (hx : 0 ≤ x) :
    0 ≤ d * (⌊x⌋ : ℝ) ∧ (d * (⌊x⌋ : ℝ) ≠ 0 → d ≤ d * (⌊x⌋ : ℝ)) ∧ (1 ≤ x → d ≤ d * (⌊x⌋ : ℝ)) := by
  have h0 : (0 : ℤ) ≤ ⌊x⌋ := Int.floor_nonneg.2 hx
  have h0' : (0 : ℝ) ≤ (⌊x⌋ : ℝ) := by exact_mod_cast h0
  refine ⟨by positivity, ?_, ?_⟩
  · intro h
    have : ⌊x⌋ ≠ 0 := by rintro e; rw [e] at h; simp at h
    have h1 : (1 : ℝ) ≤ (⌊x⌋ : ℝ) := by exact_mod_cast (show (1 : ℤ) ≤ ⌊x⌋ by omega)
    nlinarith
  · intro h
    have h1 : (1 : ℝ) ≤ (⌊x⌋ : ℝ) := by exact_mod_cast Int.le_floor.2 (by exact_mod_cast h)
    nlinarith

theorem profile_bounds {c : PmlCfg} (hc : c.Ok) {L x v : ℝ} (hL : 0 < L) (hx0 : 0 ≤ x) (hx : x ≤ 2 * L)
    (h : pmlProfile c L x = some v) : c.s1 ≤ v ∧ v ≤ c.s1 + 4 * (c.s2 - c.s1) := by
  unfold pmlProfile at h
  rw [if_neg hL.ne'] at h
  simp only [Option.some.injEq] at h
  subst h
  have hs : 0 ≤ c.s2 - c.s1 := sub_nonneg.2 hc.s12
  have e : (c.s2 - c.s1) / L ^ 2 * x ^ 2 = (c.s2 - c.s1) * (x / L) ^ 2 := by field_simp
  have hq0 : 0 ≤ x / L := by positivity
  have hq : x / L ≤ 2 := by rw [div_le_iff₀ hL]; exact hx
  have hsq : (x / L) ^ 2 ≤ 4 := by nlinarith
  rw [e]
  constructor
  · have : 0 ≤ (c.s2 - c.s1) * (x / L) ^ 2 := by positivity
    linarith
  · have := mul_le_mul_of_nonneg_left hsq hs; linarith

/-- **C46** Outside the three layers the conductivity is zero. -/
theorem C46_zero_outside (G : Geom) (c : PmlCfg) (i k : ℕ) (hl : lenLeft G c ≤ G.dz * k)
    (hr : lenRight G c ≤ G.z_size - G.dz * k) (he : lenExt G c < G.r_size - G.dr * i) :
    setPml G c i k = some 0 := by
  unfold setPml pmlFirst
  rw [if_neg (by rintro ⟨_, h, _⟩; linarith)]
  split_ifs
  · linarith
  · rfl
  · linarith
  · linarith
  · rfl

/-- **C46** (partial) Everywhere on the grid the conductivity is zero, or at least the first configured value and
at most that value plus four times the difference to the second.  Missing: the bound by the second value
itself, which is violated (`C46_overshoot_violated`). -/
theorem C46_bounds_partial (G : Geom) (hG : G.Valid) (c : PmlCfg) (hc : c.Ok) (i k : ℕ) (v : ℝ)
    (hi : i < G.nr) (hk : k < G.nz) (h : setPml G c i k = some v) :
    v = 0 ∨ (c.s1 ≤ v ∧ v ≤ c.s1 + 4 * (c.s2 - c.s1)) := by
  have hdr := hG.dr_pos
  have hdz := hG.dz_pos
  have hi' : (i : ℝ) + 1 ≤ G.nr := by exact_mod_cast hi
  have hk' : (k : ℝ) + 1 ≤ G.nz := by exact_mod_cast hk
  have hrs := hG.r_size_eq
  have hzs := hG.z_size_eq
  have hri : G.dr * (i + 1) ≤ G.r_size + G.dr := by rw [hrs]; nlinarith
  have hzk : G.dz * (k + 1) ≤ G.z_size + G.dz := by rw [hzs]; nlinarith
  obtain ⟨l0, l1, _⟩ := layer_len (x := (G.nz : ℝ) * c.l1) hdz (by have := hc.l1; positivity)
  obtain ⟨r0, r1, _⟩ := layer_len (x := (G.nz : ℝ) * c.l2) hdz (by have := hc.l2; positivity)
  obtain ⟨e0, e1, _⟩ := layer_len (x := (G.nr : ℝ) * c.l3) hdr (by have := hc.l3; positivity)
  have hext : ∀ w, G.r_size - G.dr * i ≤ lenExt G c →
      pmlProfile c (lenExt G c) (G.dr * (i + 1) - G.r_size + lenExt G c) = some w →
      c.s1 ≤ w ∧ w ≤ c.s1 + 4 * (c.s2 - c.s1) := by
    intro w hle hw
    by_cases hz : lenExt G c = 0
    · simp [pmlProfile, hz] at hw
    · have := e1 hz
      exact profile_bounds hc (lt_of_le_of_ne e0 (Ne.symm hz)) (by nlinarith) (by unfold lenExt at *; linarith) hw
  unfold setPml at h
  split_ifs at h with h1
  · exact Or.inr (hext v h1.2.1 h)
  · unfold pmlFirst at h
    split_ifs at h with h2 h3 h4 h5
    · exact Or.inr (hext v h3 h)
    · simp only [Option.some.injEq] at h; exact Or.inl h.symm
    · right
      by_cases hz : lenRight G c = 0
      · simp [pmlProfile, hz] at h
      · have := r1 hz
        exact profile_bounds hc (lt_of_le_of_ne r0 (Ne.symm hz)) (by nlinarith)
          (by unfold lenRight at *; linarith) h
    · right
      by_cases hz : lenLeft G c = 0
      · simp [pmlProfile, hz] at h
      · have hk0 : (0 : ℝ) ≤ k := Nat.cast_nonneg k
        have hlp := lt_of_le_of_ne l0 (Ne.symm hz)
        exact profile_bounds hc hlp (by linarith) (by unfold lenLeft at *; nlinarith) h
    · simp only [Option.some.injEq] at h; exact Or.inl h.symm

/-- **C46** The conductivity is never infinite or undefined when the outer layer is absent or at least one cell
thick. -/
theorem C46_defined (G : Geom) (hG : G.Valid) (c : PmlCfg) (hc : c.Ok) (h3 : c.l3 = 0 ∨ 1 ≤ (G.nr : ℝ) * c.l3)
    (i k : ℕ) (hk : k < G.nz) : setPml G c i k ≠ none := by
  have hdr := hG.dr_pos
  have hdz := hG.dz_pos
  have hzs := hG.z_size_eq
  have hk' : (k : ℝ) + 1 ≤ G.nz := by exact_mod_cast hk
  have hz0 : 0 ≤ G.z_size - G.dz * k := by rw [hzs]; nlinarith
  have hext : c.l3 ≠ 0 → lenExt G c ≠ 0 := by
    intro h
    have := (layer_len (x := (G.nr : ℝ) * c.l3) hdr (by have := hc.l3; positivity)).2.2 (h3.resolve_left h)
    unfold lenExt; linarith
  have hp : ∀ L x, L ≠ 0 → pmlProfile c L x ≠ none := by intro L x h; simp [pmlProfile, h]
  unfold setPml
  split_ifs with h1
  · exact hp _ _ (hext h1.1)
  · unfold pmlFirst
    split_ifs with h2 h4 h4 h5
    · exact hp _ _ (hext h2.2.2)
    · simp
    · exact hp _ _ (by linarith)
    · have : (0 : ℝ) ≤ k := Nat.cast_nonneg k
      exact hp _ _ (by nlinarith)
    · simp

theorem profile_mono {c : PmlCfg} (hc : c.Ok) {L x y v w : ℝ} (hx0 : 0 ≤ x) (hxy : x ≤ y)
    (hv : pmlProfile c L x = some v) (hw : pmlProfile c L y = some w) : v ≤ w := by
  unfold pmlProfile at hv hw
  split_ifs at hv hw with hL
  simp only [Option.some.injEq] at hv hw
  subst hv hw
  have hs : 0 ≤ c.s2 - c.s1 := sub_nonneg.2 hc.s12
  have : x ^ 2 ≤ y ^ 2 := by nlinarith
  have hq : 0 ≤ (c.s2 - c.s1) / L ^ 2 := by positivity
  have := mul_le_mul_of_nonneg_left this hq
  linarith

theorem profile_ge {c : PmlCfg} (hc : c.Ok) {L x v : ℝ} (hv : pmlProfile c L x = some v) : 0 ≤ v := by
  unfold pmlProfile at hv
  split_ifs at hv with hL
  simp only [Option.some.injEq] at hv
  subst hv
  have hs : 0 ≤ c.s2 - c.s1 := sub_nonneg.2 hc.s12
  have := hc.s1
  positivity

/-- **C46** Inside the tube (away from the outer layer) the conductivity does not decrease towards the left wall,
as long as the right layer is not reached. -/
theorem C46_monotone_left (G : Geom) (hG : G.Valid) (c : PmlCfg) (hc : c.Ok) (i k k' : ℕ) (v v' : ℝ)
    (hkk : k ≤ k') (hi : lenExt G c < G.r_size - G.dr * i) (hr : lenRight G c ≤ G.z_size - G.dz * k')
    (h : setPml G c i k = some v) (h' : setPml G c i k' = some v') : v' ≤ v := by
  have hdz := hG.dz_pos
  have hkk' : (k : ℝ) ≤ k' := by exact_mod_cast hkk
  unfold setPml at h h'
  rw [if_neg (by rintro ⟨_, hh, _⟩; linarith)] at h h'
  unfold pmlFirst at h h'
  by_cases hw : c.l1 = 0 ∧ c.l2 = 0 ∧ c.l3 ≠ 0
  · rw [if_pos hw, if_neg (by linarith)] at h h'
    simp only [Option.some.injEq] at h h'; linarith
  · have m : G.dz * k ≤ G.dz * k' := mul_le_mul_of_nonneg_left hkk' hdz.le
    rw [if_neg hw, if_neg (by linarith)] at h h'
    split_ifs at h h' with h1 h2
    · exact profile_mono hc (by linarith) (by linarith) h' h
    · simp only [Option.some.injEq] at h'; subst h'; exact profile_ge hc h
    · linarith
    · simp only [Option.some.injEq] at h h'; linarith

/-- **C46** Inside the tube the conductivity does not decrease towards the right wall, outside the left layer. -/
theorem C46_monotone_right (G : Geom) (hG : G.Valid) (c : PmlCfg) (hc : c.Ok) (i k k' : ℕ) (v v' : ℝ)
    (hkk : k ≤ k') (hi : lenExt G c < G.r_size - G.dr * i) (hl : lenLeft G c ≤ G.dz * k)
    (h : setPml G c i k = some v) (h' : setPml G c i k' = some v') : v ≤ v' := by
  have hdz := hG.dz_pos
  have hkk' : (k : ℝ) ≤ k' := by exact_mod_cast hkk
  unfold setPml at h h'
  rw [if_neg (by rintro ⟨_, hh, _⟩; linarith)] at h h'
  unfold pmlFirst at h h'
  by_cases hw : c.l1 = 0 ∧ c.l2 = 0 ∧ c.l3 ≠ 0
  · rw [if_pos hw, if_neg (by linarith)] at h h'
    simp only [Option.some.injEq] at h h'; linarith
  · have m : G.dz * k ≤ G.dz * k' := mul_le_mul_of_nonneg_left hkk' hdz.le
    rw [if_neg hw] at h h'
    rw [if_neg (show ¬ G.dz * k < lenLeft G c by linarith)] at h
    rw [if_neg (show ¬ G.dz * k' < lenLeft G c by linarith)] at h'
    split_ifs at h h' with h1 h2 h2
    · refine profile_mono hc ?_ ?_ h h' <;> nlinarith
    · linarith
    · simp only [Option.some.injEq] at h; subst h; exact profile_ge hc h'
    · simp only [Option.some.injEq] at h h'; linarith

/-- **C46** The conductivity does not decrease towards the outer wall, in columns outside the right layer when a
left layer is present (its corner included), or when only the outer layer is present. -/
theorem C46_monotone_outer (G : Geom) (hG : G.Valid) (c : PmlCfg) (hc : c.Ok) (i i' k : ℕ) (v v' : ℝ)
    (hii : i ≤ i') (hr : lenRight G c ≤ G.z_size - G.dz * k)
    (hcase : (0 < lenLeft G c ∧ (c.l1 ≠ 0 ∨ c.l2 ≠ 0)) ∨ (c.l1 = 0 ∧ c.l2 = 0 ∧ c.l3 ≠ 0))
    (h : setPml G c i k = some v) (h' : setPml G c i' k = some v') : v ≤ v' := by
  have hdr := hG.dr_pos
  have hdz := hG.dz_pos
  have hk0 : (0 : ℝ) ≤ k := Nat.cast_nonneg k
  have hii' : (i : ℝ) ≤ i' := by exact_mod_cast hii
  have m : G.dr * i ≤ G.dr * i' := mul_le_mul_of_nonneg_left hii' hdr.le
  obtain ⟨e0, _, _⟩ := layer_len (x := (G.nr : ℝ) * c.l3) hdr (by have := hc.l3; positivity)
  have hsq : ∀ v v' : ℝ, G.r_size - G.dr * i ≤ lenExt G c →
      pmlProfile c (lenExt G c) (G.dr * (i + 1) - G.r_size + lenExt G c) = some v →
      pmlProfile c (lenExt G c) (G.dr * (i' + 1) - G.r_size + lenExt G c) = some v' → v ≤ v' := by
    intro v v' hle hv hv'
    refine profile_mono hc ?_ ?_ hv hv' <;> nlinarith
  rcases hcase with ⟨hL, hl12⟩ | hw
  · have hnw : ¬ (c.l1 = 0 ∧ c.l2 = 0 ∧ c.l3 ≠ 0) := by
      rintro ⟨a, b, _⟩; rcases hl12 with h | h <;> contradiction
    have hfirst : ∀ j, pmlFirst G c j k = if G.dz * k < lenLeft G c then
        pmlProfile c (lenLeft G c) (lenLeft G c - G.dz * k) else some 0 := by
      intro j; unfold pmlFirst; rw [if_neg hnw, if_neg (by linarith)]
    unfold setPml at h h'
    rw [hfirst] at h h'
    by_cases c1 : c.l3 ≠ 0 ∧ G.r_size - G.dr * i ≤ lenExt G c ∧ pmlCond1 G c i k ∧ pmlCond2 G c i k
    · have c1' : c.l3 ≠ 0 ∧ G.r_size - G.dr * i' ≤ lenExt G c ∧ pmlCond1 G c i' k ∧ pmlCond2 G c i' k := by
        obtain ⟨a, b, d, e⟩ := c1
        refine ⟨a, by linarith, ?_, ?_⟩
        · unfold pmlCond1 at d ⊢
          rw [if_neg hL.ne'] at d ⊢
          nlinarith
        · unfold pmlCond2 at e ⊢
          split_ifs at e ⊢ with hz
          · exact e
          · linarith
      rw [if_pos c1] at h
      rw [if_pos c1'] at h'
      exact hsq v v' c1.2.1 h h'
    · rw [if_neg c1] at h
      by_cases c1' : c.l3 ≠ 0 ∧ G.r_size - G.dr * i' ≤ lenExt G c ∧ pmlCond1 G c i' k ∧ pmlCond2 G c i' k
      · rw [if_pos c1'] at h'
        split_ifs at h with hkl
        · obtain ⟨_, b, d, _⟩ := c1'
          unfold pmlCond1 at d
          rw [if_neg hL.ne'] at d
          unfold pmlProfile at h h'
          rw [if_neg hL.ne'] at h
          split_ifs at h' with he
          have hE : 0 < lenExt G c := lt_of_le_of_ne e0 (Ne.symm he)
          simp only [Option.some.injEq] at h h'
          subst h h'
          have hs : 0 ≤ c.s2 - c.s1 := sub_nonneg.2 hc.s12
          have e1 : (c.s2 - c.s1) / lenLeft G c ^ 2 * (lenLeft G c - G.dz * k) ^ 2
              = (c.s2 - c.s1) * (1 - G.dz * k / lenLeft G c) ^ 2 := by field_simp
          have e2 : (c.s2 - c.s1) / lenExt G c ^ 2 * (G.dr * (i' + 1) - G.r_size + lenExt G c) ^ 2
              = (c.s2 - c.s1) * (1 - (G.r_size - G.dr * (i' + 1)) / lenExt G c) ^ 2 := by
            field_simp; ring
          rw [e1, e2]
          have hx : G.dz * k / lenLeft G c < 1 := by rw [div_lt_one hL]; exact hkl
          have hy : (G.r_size - G.dr * (i' + 1)) / lenExt G c < G.dz * k / lenLeft G c := by
            rw [div_lt_iff₀ hE]
            have : G.dz * k / lenLeft G c * lenExt G c = lenExt G c * G.dz * k / lenLeft G c := by ring
            rw [this]; exact d
          have : (1 - G.dz * k / lenLeft G c) ^ 2 ≤ (1 - (G.r_size - G.dr * (i' + 1)) / lenExt G c) ^ 2 := by
            nlinarith
          have := mul_le_mul_of_nonneg_left this hs
          linarith
        · simp only [Option.some.injEq] at h; subst h; exact profile_ge hc h'
      · rw [if_neg c1'] at h'
        rw [h] at h'; simp only [Option.some.injEq] at h'; linarith
  · have hall : ∀ j w, setPml G c j k = some w → (G.r_size - G.dr * j ≤ lenExt G c ∧
        pmlProfile c (lenExt G c) (G.dr * (j + 1) - G.r_size + lenExt G c) = some w) ∨
        (¬ G.r_size - G.dr * j ≤ lenExt G c ∧ w = 0) := by
      intro j w hj
      unfold setPml at hj
      split_ifs at hj with h1
      · exact Or.inl ⟨h1.2.1, hj⟩
      · unfold pmlFirst at hj
        rw [if_pos hw] at hj
        split_ifs at hj with h2
        · exact Or.inl ⟨h2, hj⟩
        · simp only [Option.some.injEq] at hj; exact Or.inr ⟨h2, hj.symm⟩
    rcases hall i v h with ⟨a, b⟩ | ⟨a, rfl⟩
    · rcases hall i' v' h' with ⟨a', b'⟩ | ⟨a', rfl⟩
      · exact hsq v v' a b b'
      · exact absurd (by linarith) a'
    · rcases hall i' v' h' with ⟨a', b'⟩ | ⟨a', rfl⟩
      · exact profile_ge hc b'
      · exact le_rfl

/-- **C46** is violated at the walls: in the last column of a right layer, and in the last row of an outer layer,
the conductivity exceeds the second configured value. -/
theorem C46_overshoot_violated (G : Geom) (hG : G.Valid) (c : PmlCfg) (hc : c.Ok) (hs : c.s1 < c.s2) :
    (c.l3 = 0 → 1 ≤ (G.nz : ℝ) * c.l2 → ∀ i, ∃ v, setPml G c i (G.nz - 1) = some v ∧ c.s2 < v) ∧
    (c.l1 = 0 → c.l2 = 0 → c.l3 ≠ 0 → 1 ≤ (G.nr : ℝ) * c.l3 →
      ∀ k, ∃ v, setPml G c (G.nr - 1) k = some v ∧ c.s2 < v) := by
  have hdr := hG.dr_pos
  have hdz := hG.dz_pos
  have prof : ∀ L d : ℝ, 0 < d → d ≤ L → ∃ v, pmlProfile c L (d + L) = some v ∧ c.s2 < v := by
    intro L d hd hdL
    have hL : 0 < L := by linarith
    refine ⟨_, by unfold pmlProfile; rw [if_neg hL.ne'], ?_⟩
    have e : (c.s2 - c.s1) / L ^ 2 * (d + L) ^ 2 = (c.s2 - c.s1) * (1 + d / L) ^ 2 := by field_simp; ring
    rw [e]
    have : 0 < d / L := by positivity
    have h1 : 1 < (1 + d / L) ^ 2 := by nlinarith
    nlinarith
  constructor
  · intro h3 hl2 i
    have hR := (layer_len (x := (G.nz : ℝ) * c.l2) hdz (by linarith)).2.2 hl2
    have hcast : ((G.nz - 1 : ℕ) : ℝ) = (G.nz : ℝ) - 1 := by
      rw [Nat.cast_sub (by have := hG.nz_ge; omega)]; simp
    obtain ⟨v, hv, hlt⟩ := prof (lenRight G c) G.dz hdz hR
    refine ⟨v, ?_, hlt⟩
    unfold setPml pmlFirst
    rw [if_neg (by rintro ⟨h, _⟩; exact h h3), if_neg (by rintro ⟨_, _, h⟩; exact h h3), hcast, hG.z_size_eq,
      if_pos (by unfold lenRight; linarith)]
    rw [← hv]; congr 1; ring
  · intro h1 h2 h3 hl3 k
    have hE := (layer_len (x := (G.nr : ℝ) * c.l3) hdr (by linarith)).2.2 hl3
    have hcast : ((G.nr - 1 : ℕ) : ℝ) = (G.nr : ℝ) - 1 := by
      rw [Nat.cast_sub (by have := hG.nr_ge; omega)]; simp
    obtain ⟨v, hv, hlt⟩ := prof (lenExt G c) G.dr hdr hE
    refine ⟨v, ?_, hlt⟩
    have hin : G.r_size - G.dr * ((G.nr - 1 : ℕ) : ℝ) ≤ lenExt G c := by
      rw [hcast, hG.r_size_eq]; unfold lenExt; linarith
    have hx : G.dr * (((G.nr - 1 : ℕ) : ℝ) + 1) - G.r_size + lenExt G c = G.dr + lenExt G c := by
      rw [hcast, hG.r_size_eq]; ring
    have hf : pmlFirst G c (G.nr - 1) k = some v := by
      unfold pmlFirst; rw [if_pos ⟨h1, h2, h3⟩, if_pos hin, hx, hv]
    unfold setPml
    rw [hf, hx, hv]
    simp

/-- **C46** is violated by an outer layer thinner than one cell: the conductivity of the last row is infinite or
not a number. -/
theorem C46_thin_layer_violated (G : Geom) (hG : G.Valid) (c : PmlCfg) (h1 : c.l1 = 0) (h2 : c.l2 = 0)
    (h3 : 0 < c.l3) (hthin : (G.nr : ℝ) * c.l3 < 1) (k : ℕ) : setPml G c (G.nr - 1) k = none := by
  have hE : lenExt G c = 0 := by
    unfold lenExt
    have : ⌊(G.nr : ℝ) * c.l3⌋ = 0 := Int.floor_eq_zero_iff.2 ⟨by positivity, hthin⟩
    rw [this]; simp
  have hcast : ((G.nr - 1 : ℕ) : ℝ) = (G.nr : ℝ) - 1 := by
    rw [Nat.cast_sub (by have := hG.nr_ge; omega)]; simp
  have hin : G.r_size - G.dr * ((G.nr - 1 : ℕ) : ℝ) ≤ lenExt G c := by
    rw [hcast, hG.r_size_eq, hE]; linarith
  have hf : pmlFirst G c (G.nr - 1) k = none := by
    unfold pmlFirst; rw [if_pos ⟨h1, h2, h3.ne'⟩, if_pos hin, hE]; simp [pmlProfile]
  unfold setPml
  rw [hf, hE]
  simp [pmlProfile]

/-- **C46** is violated at the left wall when there is an outer and a right layer but no left layer: the outer
layer is missing in column 0, for every row. -/
theorem C46_corner_hole_violated (G : Geom) (c : PmlCfg) (h1 : c.l1 = 0) (h2 : c.l2 ≠ 0)
    (hr : lenRight G c ≤ G.z_size) (i : ℕ) : setPml G c i 0 = some 0 := by
  have hL : lenLeft G c = 0 := by simp [lenLeft, h1]
  unfold setPml pmlFirst
  rw [if_neg (by rintro ⟨_, _, h, _⟩; unfold pmlCond1 at h; rw [if_pos hL] at h; simp at h),
    if_neg (by rintro ⟨_, h, _⟩; exact h2 h), if_neg (by simpa using hr), if_neg (by rw [hL]; simp)]

/-- A grid of 11 by 21 nodes with layers on all three walls meets the hypotheses. -/
example : ∃ (G : Geom) (c : PmlCfg), G.Valid ∧ c.Ok ∧ c.s1 < c.s2 ∧ 0 < lenLeft G c ∧
    lenRight G c ≤ G.z_size - G.dz * (3 : ℕ) ∧ 1 ≤ (G.nr : ℝ) * c.l3 := by
  refine ⟨⟨10, 20, 11, 21, 1, 1⟩, ⟨1 / 3, 1 / 3, 1 / 5, 1, 2⟩, ⟨by norm_num, by norm_num, by norm_num, by norm_num,
    by norm_num, by norm_num⟩, ⟨by norm_num, by norm_num, by norm_num, by norm_num, by norm_num⟩, by norm_num, ?_, ?_,
    by norm_num⟩
  · have : ⌊((21 : ℕ) : ℝ) * (1 / 3)⌋ = 7 := by rw [Int.floor_eq_iff]; norm_num
    simp only [lenLeft, this]; norm_num
  · have : ⌊((21 : ℕ) : ℝ) * (1 / 3)⌋ = 7 := by rw [Int.floor_eq_iff]; norm_num
    simp only [lenRight, this]; norm_num

end Verif
