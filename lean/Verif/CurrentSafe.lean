import Verif.ContinuityCross
import Verif.ContinuityStrict

/-!
# Safety of the current deposition (C74)

For every move of less than a cell in each direction between two positions of the chamber off the
axis, `current_distribution` divides by no zero radius, takes no logarithm of a non-positive number
and writes only nodes of the arrays, near the path.
-/

namespace Verif

/-! ## Specification -/

/-- The point is in the chamber and not on the axis. -/
def OffAxis (G : Geom) (r z : ℝ) : Prop := 0 < r ∧ r ≤ G.r_size ∧ 0 ≤ z ∧ z ≤ G.z_size

/-- The node is at most one cell away from the rectangle spanned by the two positions. -/
def NearPath (G : Geom) (rO zO rN zN : ℝ) (i k : ℤ) : Prop :=
  min rO rN - G.dr ≤ i * G.dr ∧ i * G.dr ≤ max rO rN + G.dr ∧
  min zO zN - G.dz ≤ k * G.dz ∧ k * G.dz ≤ max zO zN + G.dz

/-- The routine ran without fault and all its calls address nodes satisfying `P`. -/
def SafeJ (P : ℤ → ℤ → Prop) (o : Option JIncs) : Prop :=
  ∃ J, o = some J ∧ (∀ d ∈ J.jr, P d.i d.k) ∧ (∀ d ∈ J.jz, P d.i d.k)

/-! ## Proof -/

theorem SafeJ.empty (P : ℤ → ℤ → Prop) : SafeJ P (some JIncs.empty) :=
  ⟨_, rfl, by simp [JIncs.empty], by simp [JIncs.empty]⟩

theorem SafeJ.seq {P : ℤ → ℤ → Prop} {x y : Option JIncs} (h1 : SafeJ P x) (h2 : SafeJ P y) :
    SafeJ P (seqJ x y) := by
  obtain ⟨J, rfl, a1, a2⟩ := h1
  obtain ⟨K, rfl, b1, b2⟩ := h2
  refine ⟨J.append K, rfl, ?_, ?_⟩
  · intro d hd
    rcases List.mem_append.1 hd with h | h
    exacts [a1 d h, b1 d h]
  · intro d hd
    rcases List.mem_append.1 hd with h | h
    exacts [a2 d h, b2 d h]

theorem SafeJ.mono {P Q : ℤ → ℤ → Prop} (hPQ : ∀ i k, P i k → Q i k) {o : Option JIncs}
    (h : SafeJ P o) : SafeJ Q o := by
  obtain ⟨J, rfl, a, b⟩ := h
  exact ⟨J, rfl, fun d hd => hPQ _ _ (a d hd), fun d hd => hPQ _ _ (b d hd)⟩

/-- the corners of the cells `i0..i1 × k0..k1` -/
def CellBox (i0 i1 k0 k1 i k : ℤ) : Prop := i0 ≤ i ∧ i ≤ i1 + 1 ∧ k0 ≤ k ∧ k ≤ k1 + 1

theorem simple_safe (G : Geom) (dt q : ℝ) {rN rO : ℝ} (zN zO : ℝ) (hrN : 0 < rN) (hrO : 0 < rO)
    {i0 i1 k0 k1 i k : ℤ} (a : i0 ≤ i) (b : i ≤ i1) (c : k0 ≤ k) (d : k ≤ k1) :
    SafeJ (CellBox i0 i1 k0 k1) (simpleCurrent G dt q rN zN rO zO i k) := by
  unfold simpleCurrent
  by_cases h1 : |rN - rO| < MNZL ∨ |zN - zO| < MNZL
  · simp only [h1, if_true]; exact SafeJ.empty _
  · have hg2 : ¬ (rO * rN ≤ 0) := not_le.2 (mul_pos hrO hrN)
    simp only [h1, hg2, if_false]
    by_cases h2 : i ≥ 1
    · simp only [h2, if_true]
      refine ⟨_, rfl, ?_, ?_⟩ <;>
      · simp only [List.mem_cons, List.not_mem_nil, or_false, forall_eq_or_imp, forall_eq, CellBox]
        omega
    · simp only [h2, if_false]
      refine ⟨_, rfl, ?_, ?_⟩ <;>
      · simp only [List.mem_cons, List.not_mem_nil, or_false, forall_eq_or_imp, forall_eq, CellBox]
        omega

/-- a radius between two positive radii is positive -/
theorem between_pos {a b s : ℝ} (ha : 0 < a) (hb : 0 < b) (h0 : 0 < s) (h1 : s < 1) :
    0 < a + s * (b - a) := by
  have : a + s * (b - a) = (1 - s) * a + s * b := by ring
  rw [this]
  have := mul_pos h0 hb
  have := mul_pos (sub_pos.2 h1) ha
  linarith

/-- the calls of the strict-motion routine -/
theorem strict_safe (G : Geom) (hG : G.Valid) (dt q : ℝ) {rO zO rN zN : ℝ}
    (hO : OffAxis G rO zO) (hN : OffAxis G rN zN)
    (hsr : |rN - rO| < G.dr) (hsz : |zN - zO| < G.dz) :
    ∃ i0 i1 k0 k1 : ℤ, (0 ≤ i0 ∧ i1 + 1 < G.nr ∧ 0 ≤ k0 ∧ k1 + 1 < G.nz ∧
      min rO rN - G.dr ≤ i0 * G.dr ∧ (i1 + 1) * G.dr ≤ max rO rN + G.dr ∧
      min zO zN - G.dz ≤ k0 * G.dz ∧ (k1 + 1) * G.dz ≤ max zO zN + G.dz) ∧
      SafeJ (CellBox i0 i1 k0 k1) (strictMotion G dt q rN zN rO zO) := by
  have hdr := hG.dr_pos
  have hdz := hG.dz_pos
  obtain ⟨o1, o2, o3, o4⟩ := hO
  obtain ⟨n1, n2, n3, n4⟩ := hN
  obtain ⟨i0, i1, bi1, bi2⟩ := raw_cell hdr hG.nr_ge hG.r_size_eq n1.le n2
  obtain ⟨io0, io1, bio1, bio2⟩ := raw_cell hdr hG.nr_ge hG.r_size_eq o1.le o2
  obtain ⟨ko0, ko1, bo1, bo2⟩ := raw_cell hdz hG.nz_ge hG.z_size_eq o3 o4
  obtain ⟨k0, k1, bk1, bk2⟩ := raw_cell hdz hG.nz_ge hG.z_size_eq n3 n4
  have hdi := raw_cell_diff hdr o1.le n1.le hsr
  have hdk := raw_cell_diff hdz o3 n3 hsz
  unfold strictMotion
  simp only [n1.ne', o1.ne', or_self, if_false]
  generalize clamp0 (CELL_NUMBER rN G.dr) = i at *
  generalize clamp0 (CELL_NUMBER rO G.dr) = i' at *
  generalize clamp0 (CELL_NUMBER zN G.dz) = k at *
  generalize clamp0 (CELL_NUMBER zO G.dz) = k' at *
  refine ⟨min i' i, max i' i, min k' k, max k' k, ⟨by omega, by omega, by omega, by omega, ?_⟩, ?_⟩
  · refine ⟨?_, ?_, ?_, ?_⟩
    · rcases le_total i' i with h | h
      · rw [min_eq_left h]; linarith [min_le_left rO rN]
      · rw [min_eq_right h]; linarith [min_le_right rO rN]
    · rcases le_total i' i with h | h
      · rw [max_eq_right h]; linarith [le_max_right rO rN]
      · rw [max_eq_left h]; linarith [le_max_left rO rN]
    · rcases le_total k' k with h | h
      · rw [min_eq_left h]; linarith [min_le_left zO zN]
      · rw [min_eq_right h]; linarith [min_le_right zO zN]
    · rcases le_total k' k with h | h
      · rw [max_eq_right h]; linarith [le_max_right zO zN]
      · rw [max_eq_left h]; linarith [le_max_left zO zN]
  · split_ifs <;> first
      | exact SafeJ.empty _
      | (refine ⟨_, rfl, ?_, ?_⟩ <;>
          (simp only [List.mem_cons, List.not_mem_nil, or_false, forall_eq_or_imp, forall_eq, CellBox,
            false_implies, implies_true] <;> omega))

set_option maxHeartbeats 1600000 in
/-- the calls of a move that is not strict -/
theorem move_safe (G : Geom) (hG : G.Valid) (dt q : ℝ) {rO zO rN zN : ℝ}
    (hO : OffAxis G rO zO) (hN : OffAxis G rN zN)
    (hsr : |rN - rO| < G.dr) (hsz : |zN - zO| < G.dz) :
    ∃ i0 i1 k0 k1 : ℤ, (0 ≤ i0 ∧ i1 + 1 < G.nr ∧ 0 ≤ k0 ∧ k1 + 1 < G.nz ∧
      min rO rN - G.dr ≤ i0 * G.dr ∧ (i1 + 1) * G.dr ≤ max rO rN + G.dr ∧
      min zO zN - G.dz ≤ k0 * G.dz ∧ (k1 + 1) * G.dz ≤ max zO zN + G.dz) ∧
      SafeJ (CellBox i0 i1 k0 k1) (currentOfMove G dt q rN zN rO zO) := by
  by_cases hg : |rN - rO| < MNZL ∨ |zN - zO| < MNZL
  · have hcur : currentOfMove G dt q rN zN rO zO = strictMotion G dt q rN zN rO zO := by
      unfold currentOfMove
      simp only [hg, if_true]
    rw [hcur]
    exact strict_safe G hG dt q hO hN hsr hsz
  have hdr := hG.dr_pos
  have hdz := hG.dz_pos
  have hm := MNZL_pos
  obtain ⟨o1, o2, o3, o4⟩ := hO
  obtain ⟨n1, n2, n3, n4⟩ := hN
  have hΔr : rN - rO ≠ 0 := fun h => hg (Or.inl (by rw [h, abs_zero]; exact hm))
  have hΔz : zN - zO ≠ 0 := fun h => hg (Or.inr (by rw [h, abs_zero]; exact hm))
  have hΔr' : rO - rN ≠ 0 := fun h => hΔr (by linarith)
  have hΔz' : zO - zN ≠ 0 := fun h => hΔz (by linarith)
  obtain ⟨co, hco⟩ : ∃ c, c = clamp0 (CELL_NUMBER rO G.dr) := ⟨_, rfl⟩
  obtain ⟨cn, hcn⟩ : ∃ c, c = clamp0 (CELL_NUMBER rN G.dr) := ⟨_, rfl⟩
  obtain ⟨ko, hko⟩ : ∃ c, c = clamp0 (CELL_NUMBER zO G.dz) := ⟨_, rfl⟩
  obtain ⟨kn, hkn⟩ : ∃ c, c = clamp0 (CELL_NUMBER zN G.dz) := ⟨_, rfl⟩
  obtain ⟨io, hio⟩ : ∃ io, io = if rO = ((co : ℝ) + 1) * G.dr then cn else co := ⟨_, rfl⟩
  obtain ⟨i, hi⟩ : ∃ i, i = if rN = ((cn : ℝ) + 1) * G.dr then io else cn := ⟨_, rfl⟩
  obtain ⟨k', hk'⟩ : ∃ k', k' = if zO = ((ko : ℝ) + 1) * G.dz then kn else ko := ⟨_, rfl⟩
  obtain ⟨k, hk⟩ : ∃ k, k = if zN = ((kn : ℝ) + 1) * G.dz then k' else kn := ⟨_, rfl⟩
  obtain ⟨io0, i0, io1, i1, hR⟩ := adjust_spec hdr o1.le n1.le hsr (sub_ne_zero.1 hΔr)
    hG.r_size_eq hG.nr_ge o2 n2 hco hcn hio hi
  obtain ⟨ko0, k0, ko1, k1, hZ⟩ := adjust_spec hdz o3 n3 hsz (sub_ne_zero.1 hΔz)
    hG.z_size_eq hG.nz_ge o4 n4 hko hkn hk' hk
  unfold currentOfMove
  simp only [hg, if_false]
  rw [← hco, ← hcn, ← hko, ← hkn, ← hio, ← hi, ← hk', ← hk]
  refine ⟨min io i, max io i, min k' k, max k' k,
    ⟨by omega, by omega, by omega, by omega, ?_⟩, ?_⟩
  · have bO : (io : ℝ) * G.dr ≤ rO ∧ rO ≤ ((io : ℝ) + 1) * G.dr := by
      rcases hR with ⟨eR, a1, a2, a3, a4⟩ | ⟨eR, a1, a2, a3, a4⟩ | ⟨eR, a1, a2, a3, a4⟩
      · rw [← eR]; exact ⟨a1, a2⟩
      · rw [eR] at a2; push_cast at a2; exact ⟨a1, a2.le⟩
      · rw [eR] at a2 ⊢; push_cast at a2 ⊢; exact ⟨a1.le, a2⟩
    have bN : (i : ℝ) * G.dr ≤ rN ∧ rN ≤ ((i : ℝ) + 1) * G.dr := by
      rcases hR with ⟨eR, a1, a2, a3, a4⟩ | ⟨eR, a1, a2, a3, a4⟩ | ⟨eR, a1, a2, a3, a4⟩
      · exact ⟨a3, a4⟩
      · exact ⟨a3.le, a4⟩
      · exact ⟨a3, a4.le⟩
    have cO : (k' : ℝ) * G.dz ≤ zO ∧ zO ≤ ((k' : ℝ) + 1) * G.dz := by
      rcases hZ with ⟨eR, a1, a2, a3, a4⟩ | ⟨eR, a1, a2, a3, a4⟩ | ⟨eR, a1, a2, a3, a4⟩
      · rw [← eR]; exact ⟨a1, a2⟩
      · rw [eR] at a2; push_cast at a2; exact ⟨a1, a2.le⟩
      · rw [eR] at a2 ⊢; push_cast at a2 ⊢; exact ⟨a1.le, a2⟩
    have cN : (k : ℝ) * G.dz ≤ zN ∧ zN ≤ ((k : ℝ) + 1) * G.dz := by
      rcases hZ with ⟨eR, a1, a2, a3, a4⟩ | ⟨eR, a1, a2, a3, a4⟩ | ⟨eR, a1, a2, a3, a4⟩
      · exact ⟨a3, a4⟩
      · exact ⟨a3.le, a4⟩
      · exact ⟨a3, a4.le⟩
    refine ⟨?_, ?_, ?_, ?_⟩
    · rcases le_total io i with h | h
      · rw [min_eq_left h]; linarith [min_le_left rO rN]
      · rw [min_eq_right h]; linarith [min_le_right rO rN]
    · rcases le_total io i with h | h
      · rw [max_eq_right h]; linarith [le_max_right rO rN]
      · rw [max_eq_left h]; linarith [le_max_left rO rN]
    · rcases le_total k' k with h | h
      · rw [min_eq_left h]; linarith [min_le_left zO zN]
      · rw [min_eq_right h]; linarith [min_le_right zO zN]
    · rcases le_total k' k with h | h
      · rw [max_eq_right h]; linarith [le_max_right zO zN]
      · rw [max_eq_left h]; linarith [le_max_left zO zN]
  have rI : ∀ {m : ℤ}, 1 ≤ m → (0:ℝ) < (m : ℝ) * G.dr := by
    intro m hm; have : (1:ℝ) ≤ m := by exact_mod_cast hm
    positivity
  have rI' : (0:ℝ) < ((i : ℝ) + 1) * G.dr := by
    have : (0:ℝ) ≤ i := by exact_mod_cast i0
    positivity
  -- radius at the crossing of an axial face
  have zf : ∀ f : ℝ, (zO < f ∧ f < zN) ∨ (zN < f ∧ f < zO) →
      0 < rO + (f - zO) / (zN - zO) * (rN - rO) := fun f hf =>
    between_pos o1 n1 (cross_time hf).1 (cross_time hf).2.1
  rcases hR with ⟨eR, a1, a2, a3, a4⟩ | ⟨eR, a1, a2, a3, a4⟩ | ⟨eR, a1, a2, a3, a4⟩
  · rcases hZ with ⟨eZ, b1, b2, b3, b4⟩ | ⟨eZ, b1, b2, b3, b4⟩ | ⟨eZ, b1, b2, b3, b4⟩
    · rw [if_pos (by rw [eR, eZ]; simp)]
      exact simple_safe G dt q _ _ n1 o1 (by omega) (by omega) (by omega) (by omega)
    · rw [if_neg (by rw [eR, eZ]; simp), if_pos (by rw [eR, eZ]; simp),
        if_neg (by rw [eR]; simp), if_pos ⟨eR, by omega⟩, if_pos b2]
      have hz := zf _ (Or.inl ⟨b2, b3⟩)
      have er : rO + (rN - rO) / (zN - zO) * ((k:ℝ) * G.dz - zO) =
          rO + ((k:ℝ) * G.dz - zO) / (zN - zO) * (rN - rO) := by ring
      rw [er]
      exact (simple_safe G dt q _ _ hz o1 (by omega) (by omega) (by omega) (by omega)).seq
        (simple_safe G dt q _ _ n1 hz (by omega) (by omega) (by omega) (by omega))
    · have hnlt : ¬ zO < (k : ℝ) * G.dz := by
        have : ((k:ℝ) + 1) * G.dz = (k:ℝ) * G.dz + G.dz := by ring
        linarith
      rw [if_neg (by rw [eR, eZ]; simp), if_pos (by rw [eR, eZ]; simp),
        if_neg (by rw [eR]; simp), if_pos ⟨eR, by omega⟩, if_neg hnlt]
      have hz := zf _ (Or.inr ⟨b4, b1⟩)
      have er : rN + (rO - rN) / (zO - zN) * (((k:ℝ) + 1) * G.dz - zN) =
          rO + (((k:ℝ) + 1) * G.dz - zO) / (zN - zO) * (rN - rO) := by
        field_simp; ring
      rw [er]
      exact (simple_safe G dt q _ _ hz o1 (by omega) (by omega) (by omega) (by omega)).seq
        (simple_safe G dt q _ _ n1 hz (by omega) (by omega) (by omega) (by omega))
  · have hngt : ¬ rO > ((i : ℝ) + 1) * G.dr := by
      have : ((i:ℝ) + 1) * G.dr = (i:ℝ) * G.dr + G.dr := by ring
      linarith
    have hb : (0:ℝ) < (i : ℝ) * G.dr := rI (by omega)
    rcases hZ with ⟨eZ, b1, b2, b3, b4⟩ | ⟨eZ, b1, b2, b3, b4⟩ | ⟨eZ, b1, b2, b3, b4⟩
    · rw [if_neg (by rw [eR, eZ]; simp), if_pos (by rw [eR, eZ]; simp),
        if_pos ⟨by omega, eZ⟩, if_neg hngt]
      exact (simple_safe G dt q _ _ hb o1 (by omega) (by omega) (by omega) (by omega)).seq
        (simple_safe G dt q _ _ n1 hb (by omega) (by omega) (by omega) (by omega))
    · have hz := zf _ (Or.inl ⟨b2, b3⟩)
      have er : rO + ((k:ℝ) * G.dz - zO) * ((rN - rO) / (zN - zO)) =
          rO + ((k:ℝ) * G.dz - zO) / (zN - zO) * (rN - rO) := by ring
      rw [if_neg (by rw [eR, eZ]; simp), if_neg (by rw [eR, eZ]; simp),
        if_pos (by rw [eR, eZ]; simp), if_pos (by omega), if_pos (by omega), er]
      split_ifs
      · exact (simple_safe G dt q _ _ hb o1 (by omega) (by omega) (by omega) (by omega)).seq
          ((simple_safe G dt q _ _ hz hb (by omega) (by omega) (by omega) (by omega)).seq
          (simple_safe G dt q _ _ n1 hz (by omega) (by omega) (by omega) (by omega)))
      · exact (simple_safe G dt q _ _ hz o1 (by omega) (by omega) (by omega) (by omega)).seq
          ((simple_safe G dt q _ _ hb hz (by omega) (by omega) (by omega) (by omega)).seq
          (simple_safe G dt q _ _ n1 hb (by omega) (by omega) (by omega) (by omega)))
      · exact SafeJ.empty _
    · have hz := zf _ (Or.inr ⟨b4, b1⟩)
      have er : rO + -(zO - ((k:ℝ) + 1) * G.dz) * ((rN - rO) / (zN - zO)) =
          rO + (((k:ℝ) + 1) * G.dz - zO) / (zN - zO) * (rN - rO) := by ring
      rw [if_neg (by rw [eR, eZ]; simp), if_neg (by rw [eR, eZ]; simp),
        if_pos (by rw [eR, eZ]; simp), if_pos (by omega), if_neg (by omega), er]
      split_ifs
      · exact (simple_safe G dt q _ _ hb o1 (by omega) (by omega) (by omega) (by omega)).seq
          ((simple_safe G dt q _ _ hz hb (by omega) (by omega) (by omega) (by omega)).seq
          (simple_safe G dt q _ _ n1 hz (by omega) (by omega) (by omega) (by omega)))
      · exact (simple_safe G dt q _ _ hz o1 (by omega) (by omega) (by omega) (by omega)).seq
          ((simple_safe G dt q _ _ hb hz (by omega) (by omega) (by omega) (by omega)).seq
          (simple_safe G dt q _ _ n1 hb (by omega) (by omega) (by omega) (by omega)))
      · exact SafeJ.empty _
  · rcases hZ with ⟨eZ, b1, b2, b3, b4⟩ | ⟨eZ, b1, b2, b3, b4⟩ | ⟨eZ, b1, b2, b3, b4⟩
    · rw [if_neg (by rw [eR, eZ]; simp), if_pos (by rw [eR, eZ]; simp),
        if_pos ⟨by omega, eZ⟩, if_pos a1]
      exact (simple_safe G dt q _ _ rI' o1 (by omega) (by omega) (by omega) (by omega)).seq
        (simple_safe G dt q _ _ n1 rI' (by omega) (by omega) (by omega) (by omega))
    · have hz := zf _ (Or.inl ⟨b2, b3⟩)
      have er : rO - -((k:ℝ) * G.dz - zO) * ((rN - rO) / (zN - zO)) =
          rO + ((k:ℝ) * G.dz - zO) / (zN - zO) * (rN - rO) := by ring
      rw [if_neg (by rw [eR, eZ]; simp), if_neg (by rw [eR, eZ]; simp),
        if_pos (by rw [eR, eZ]; simp), if_neg (by omega), if_pos (by omega), if_pos (by omega), er]
      split_ifs
      · exact (simple_safe G dt q _ _ rI' o1 (by omega) (by omega) (by omega) (by omega)).seq
          ((simple_safe G dt q _ _ hz rI' (by omega) (by omega) (by omega) (by omega)).seq
          (simple_safe G dt q _ _ n1 hz (by omega) (by omega) (by omega) (by omega)))
      · exact (simple_safe G dt q _ _ hz o1 (by omega) (by omega) (by omega) (by omega)).seq
          ((simple_safe G dt q _ _ rI' hz (by omega) (by omega) (by omega) (by omega)).seq
          (simple_safe G dt q _ _ n1 rI' (by omega) (by omega) (by omega) (by omega)))
      · exact SafeJ.empty _
    · have hz := zf _ (Or.inr ⟨b4, b1⟩)
      have er : rN + (((k:ℝ) + 1) * G.dz - zN) * ((rO - rN) / (zO - zN)) =
          rO + (((k:ℝ) + 1) * G.dz - zO) / (zN - zO) * (rN - rO) := by
        field_simp; ring
      rw [if_neg (by rw [eR, eZ]; simp), if_neg (by rw [eR, eZ]; simp),
        if_pos (by rw [eR, eZ]; simp), if_neg (by omega), if_pos (by omega), if_neg (by omega),
        if_pos (by omega), er]
      split_ifs
      · exact (simple_safe G dt q _ _ rI' o1 (by omega) (by omega) (by omega) (by omega)).seq
          ((simple_safe G dt q _ _ hz rI' (by omega) (by omega) (by omega) (by omega)).seq
          (simple_safe G dt q _ _ n1 hz (by omega) (by omega) (by omega) (by omega)))
      · exact (simple_safe G dt q _ _ hz o1 (by omega) (by omega) (by omega) (by omega)).seq
          ((simple_safe G dt q _ _ rI' hz (by omega) (by omega) (by omega) (by omega)).seq
          (simple_safe G dt q _ _ n1 rI' (by omega) (by omega) (by omega) (by omega)))
      · exact SafeJ.empty _

/-! ## The property -/

/-- **C74.** For every grid, time step, charge and move of less than a cell in each direction
between two positions of the chamber off the axis, the deposition of the radial and axial current
has no fault, and every node it writes is in the arrays and at most a cell away from the path. -/
theorem C74_current_safe (G : Geom) (hG : G.Valid) (dt q : ℝ) {rO zO rN zN : ℝ}
    (hO : OffAxis G rO zO) (hN : OffAxis G rN zN)
    (hsr : |rN - rO| < G.dr) (hsz : |zN - zO| < G.dz) :
    ∃ J, currentOfMove G dt q rN zN rO zO = some J ∧
      ∀ d ∈ J.jr ++ J.jz, InGrid G.nr G.nz d.i d.k ∧ NearPath G rO zO rN zN d.i d.k := by
  obtain ⟨i0, i1, k0, k1, ⟨b1, b2, b3, b4, c1, c2, c3, c4⟩, J, hJ, hr, hz⟩ :=
    move_safe G hG dt q hO hN hsr hsz
  have hdr := hG.dr_pos
  have hdz := hG.dz_pos
  have key : ∀ i k, CellBox i0 i1 k0 k1 i k → InGrid G.nr G.nz i k ∧ NearPath G rO zO rN zN i k := by
    rintro i k ⟨h1, h2, h3, h4⟩
    have e1 : (i0 : ℝ) ≤ i := by exact_mod_cast h1
    have e2 : (i : ℝ) ≤ i1 + 1 := by exact_mod_cast h2
    have e3 : (k0 : ℝ) ≤ k := by exact_mod_cast h3
    have e4 : (k : ℝ) ≤ k1 + 1 := by exact_mod_cast h4
    refine ⟨⟨by omega, by omega, by omega, by omega⟩, ?_, ?_, ?_, ?_⟩
    · exact c1.trans (mul_le_mul_of_nonneg_right e1 hdr.le)
    · exact (mul_le_mul_of_nonneg_right e2 hdr.le).trans c2
    · exact c3.trans (mul_le_mul_of_nonneg_right e3 hdz.le)
    · exact (mul_le_mul_of_nonneg_right e4 hdz.le).trans c4
  refine ⟨J, hJ, fun d hd => ?_⟩
  rcases List.mem_append.1 hd with h | h
  exacts [key _ _ (hr d h), key _ _ (hz d h)]

end Verif
