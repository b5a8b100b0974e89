import Verif.YeeStable
import Verif.LimitsProps

/-!
# Stability of the field solver (C51)

Specification: `energyE`, `energyH`: the energy of the electric field and of the time-centred magnetic field (the
arrays the particles read), each node weighted with the volume it stands for.
-/

namespace Verif

open Finset

/-! ## Specification -/

/-- Energy of the electric field -/
noncomputable def energyE (G : Geom) (m : Mem Loc) : ℝ :=
  sumE G (fun a i k => fieldsOf m .eps i k * EPSILON0 * fieldsOf m a i k ^ 2 / 2)

/-- Energy of the magnetic field at the time of the electric field: `mh` is the memory after the magnetic update that
follows `m`. -/
noncomputable def energyH (G : Geom) (mh : Mem Loc) : ℝ :=
  sumH G (fun a i k => MAGN_CONST * fieldsOf mh (halfOf a) i k ^ 2 / 2)

/-- The stability limit with safety factor `θ`: `(c dt)² (4/3 / dr² + 1/dz²) ≤ θ` where `c` is the largest speed of
light in the medium (`e` is the smallest permittivity). -/
def StepLimit (G : Geom) (dt e θ : ℝ) : Prop :=
  dt ^ 2 * (4 / 3 / G.dr ^ 2 + 1 / G.dz ^ 2) ≤ θ * (e * EPSILON0 * MAGN_CONST)

/-! ## Helpers -/

theorem sumH_nonneg {G : Geom} (hG : G.Valid) {f : Arr → ℤ → ℤ → ℝ}
    (h : ∀ a i k, HNode G a i k → 0 ≤ f a i k) : 0 ≤ sumH G f := by
  have cast : ∀ i : ℤ, 0 ≤ i → (0:ℝ) ≤ (i:ℝ) := fun i hi => by exact_mod_cast hi
  unfold sumH
  refine add_nonneg (add_nonneg ?_ ?_) ?_
  · apply sumBox_nonneg; intro i k hb
    exact mul_nonneg (ringVol_nonneg hG (cast i hb.1)) (h .hr i k hb)
  · apply sumBox_nonneg; intro i k hb
    exact mul_nonneg (ringVol_nonneg hG (by have := cast i hb.1; linarith)) (h .hphi i k hb)
  · apply sumBox_nonneg; intro i k hb
    exact mul_nonneg (ringVol_nonneg hG (by have := cast i hb.1; linarith)) (h .hz i k hb)

theorem sumE_le {G : Geom} (hG : G.Valid) {f g : Arr → ℤ → ℤ → ℝ}
    (h : ∀ a i k, ENode G a i k → f a i k ≤ g a i k) : sumE G f ≤ sumE G g := by
  have h1 := sumE_nonneg hG (f := fun a i k => (-1) * f a i k + g a i k)
    (fun a i k hn => by have := h a i k hn; linarith)
  rw [sumE_lin] at h1
  linarith

theorem sumH_le {G : Geom} (hG : G.Valid) {f g : Arr → ℤ → ℤ → ℝ}
    (h : ∀ a i k, HNode G a i k → f a i k ≤ g a i k) : sumH G f ≤ sumH G g := by
  have h1 := sumH_nonneg hG (f := fun a i k => (-1) * f a i k + g a i k)
    (fun a i k hn => by have := h a i k hn; linarith)
  rw [sumH_lin] at h1
  linarith

theorem sumE_mul (G : Geom) (x : ℝ) (f : Arr → ℤ → ℤ → ℝ) :
    sumE G (fun a i k => x * f a i k) = x * sumE G f := by
  have h := sumE_lin G x f (fun _ _ _ => 0)
  have z : sumE G (fun _ _ _ => 0) = 0 := by unfold sumE sumBox; simp
  rw [z, add_zero] at h
  rw [← h]; simp only [add_zero]

theorem sumH_mul (G : Geom) (x : ℝ) (f : Arr → ℤ → ℤ → ℝ) :
    sumH G (fun a i k => x * f a i k) = x * sumH G f := by
  have h := sumH_lin G x f (fun _ _ _ => 0)
  have z : sumH G (fun _ _ _ => 0) = 0 := by unfold sumH sumBox; simp
  rw [z, add_zero] at h
  rw [← h]; simp only [add_zero]

/-- the time-centred magnetic field in terms of the curl -/
theorem hStep_half {G : Geom} {dt : ℝ} (F : Fields) {a : Arr} {i k : ℤ} (hn : HNode G a i k) :
    hStep G dt F (halfOf a) i k = F a i k + dt / (2 * MAGN_CONST) * curlE G F a i k := by
  have e5 : (0.5 : ℝ) = 1 / 2 := by norm_num
  have := MAGN_CONST_pos
  cases a <;> simp only [HNode] at hn <;> simp only [halfOf]
  · simp only [hStep]; rw [if_pos hn]; unfold alphaR curlE
    simp only [div_eq_mul_inv, mul_inv]; ring
  · simp only [hStep]; rw [if_pos hn]; unfold alphaPhi curlE
    simp only [div_eq_mul_inv, mul_inv]; ring
  · simp only [hStep]; rw [if_pos hn]; unfold alphaZ curlE; rw [e5]
    simp only [div_eq_mul_inv, mul_inv]; ring

/-- the conserved energy in terms of the fields at one time -/
theorem energy_centred (G : Geom) (dt : ℝ) (F : Fields) :
    energy G F (hStep G dt F) =
      sumE G (fun a i k => F .eps i k * EPSILON0 * F a i k ^ 2 / 2) +
      sumH G (fun a i k => MAGN_CONST * hStep G dt F (halfOf a) i k ^ 2 / 2) -
      dt ^ 2 / (8 * MAGN_CONST) * sumH G (fun a i k => curlE G F a i k ^ 2) := by
  have hm := MAGN_CONST_pos
  unfold energy
  have : sumH G (fun a i k => MAGN_CONST * F a i k * hStep G dt F a i k / 2) =
      -(dt ^ 2 / (8 * MAGN_CONST)) * sumH G (fun a i k => curlE G F a i k ^ 2) +
      sumH G (fun a i k => MAGN_CONST * hStep G dt F (halfOf a) i k ^ 2 / 2) := by
    rw [← sumH_lin]
    apply sumH_congr
    intro a i k hn
    rw [hStep_half F hn, hStep_curl F hn]
    field_simp
    ring
  rw [this]; ring

theorem run_keeps {G : Geom} (hG : G.Valid) {dt : ℝ} {m : Mem Loc} (hm : Initialised G m)
    (hw : WallE G (fieldsOf m)) (n : ℕ) : ∀ m', FieldRun G dt (fun _ => []) n m m' →
    Initialised G m' ∧ WallE G (fieldsOf m') ∧
      ∀ i k, Box 0 G.nr 0 G.nz i k → fieldsOf m' .eps i k = fieldsOf m .eps i k ∧
        fieldsOf m' .sig i k = fieldsOf m .sig i k := by
  induction n with
  | zero => intro m' h; cases h; exact ⟨hm, hw, fun _ _ _ => ⟨rfl, rfl⟩⟩
  | succ n ih =>
    intro m2 h
    cases h with
    | succ _ _ m1 _ hx hs =>
      obtain ⟨i1, w1, e1⟩ := ih m1 hx
      obtain ⟨i2, w2, e2⟩ := step_initialised hG (by simp) i1 hs
      exact ⟨i2, w2 w1, fun i k hb => ⟨(e2 i k hb).1.trans (e1 i k hb).1, (e2 i k hb).2.trans (e1 i k hb).2⟩⟩

theorem ENode.box {G : Geom} {a : Arr} {i k : ℤ} (h : ENode G a i k) : Box 0 G.nr 0 G.nz i k := by
  cases a <;> simp only [ENode, Box] at * <;> omega

/-- the curl term of the energy is at most `θ` times the electric energy -/
theorem curl_le_elec {G : Geom} (hG : G.Valid) {dt e θ : ℝ} (hl : StepLimit G dt e θ) (F : Fields)
    (hw : WallE G F) (hθ : 0 ≤ θ) (heps : ∀ i k, Box 0 G.nr 0 G.nz i k → e ≤ F .eps i k) :
    dt ^ 2 / (8 * MAGN_CONST) * sumH G (fun a i k => curlE G F a i k ^ 2) ≤
      θ * sumE G (fun a i k => F .eps i k * EPSILON0 * F a i k ^ 2 / 2) := by
  have hm := MAGN_CONST_pos
  have h0 := EPSILON0_pos
  have c1 := curlE_le hG F hw
  have s1 : 0 ≤ sumE G (fun a i k => F a i k ^ 2) := sumE_nonneg hG fun a i k _ => sq_nonneg _
  have s2 : e * EPSILON0 / 2 * sumE G (fun a i k => F a i k ^ 2) ≤
      sumE G (fun a i k => F .eps i k * EPSILON0 * F a i k ^ 2 / 2) := by
    rw [← sumE_mul]
    apply sumE_le hG
    intro a i k hn
    have := heps i k hn.box
    have h3 : 0 ≤ EPSILON0 * F a i k ^ 2 := by positivity
    nlinarith [mul_le_mul_of_nonneg_right this h3]
  calc dt ^ 2 / (8 * MAGN_CONST) * sumH G (fun a i k => curlE G F a i k ^ 2)
      ≤ dt ^ 2 / (8 * MAGN_CONST) * (curlBound G * sumE G (fun a i k => F a i k ^ 2)) :=
        mul_le_mul_of_nonneg_left c1 (by positivity)
    _ = dt ^ 2 * (4 / 3 / G.dr ^ 2 + 1 / G.dz ^ 2) / (2 * MAGN_CONST) * sumE G (fun a i k => F a i k ^ 2) := by
        unfold curlBound; ring
    _ ≤ θ * (e * EPSILON0 * MAGN_CONST) / (2 * MAGN_CONST) * sumE G (fun a i k => F a i k ^ 2) :=
        mul_le_mul_of_nonneg_right (div_le_div_of_nonneg_right hl (by positivity)) s1
    _ = θ * (e * EPSILON0 / 2 * sumE G (fun a i k => F a i k ^ 2)) := by field_simp
    _ ≤ _ := mul_le_mul_of_nonneg_left s2 hθ

/-- one state: the conserved energy between its two bounds -/
theorem energy_between {G : Geom} (hG : G.Valid) {dt e θ : ℝ} (hl : StepLimit G dt e θ) (hθ : 0 ≤ θ)
    {m mh : Mem Loc} (hm : Initialised G m) (hw : WallE G (fieldsOf m))
    (heps : ∀ i k, Box 0 G.nr 0 G.nz i k → e ≤ fieldsOf m .eps i k)
    (hh : RegionRun (Alloc G) (hRegion G dt) m mh) :
    memEnergy G m mh ≤ energyE G m + energyH G mh ∧
      (1 - θ) * energyE G m + energyH G mh ≤ memEnergy G m mh := by
  obtain ⟨x, s1, r1⟩ := hRegion_spec hG dt hm.rep
  rw [← s1.sound.2.2 _ hh] at r1
  have refl : Agree G (fieldsOf m) (fieldsOf m) := fun _ _ _ _ => rfl
  have eH : energyH G mh =
      sumH G (fun a i k => MAGN_CONST * hStep G dt (fieldsOf m) (halfOf a) i k ^ 2 / 2) := by
    unfold energyH
    apply sumH_congr
    intro a i k hn
    have : fieldsOf mh (halfOf a) i k = hStep G dt (fieldsOf m) (halfOf a) i k := by
      cases a <;> simp only [HNode, Box] at hn
      · exact agree_at r1.agree .hrh i k (by rng) (by rng) (by rng) (by rng)
      · exact agree_at r1.agree .hphih i k (by rng) (by rng) (by rng) (by rng)
      · exact agree_at r1.agree .hzh i k (by rng) (by rng) (by rng) (by rng)
    rw [this]
  have en : memEnergy G m mh = energyE G m + energyH G mh -
      dt ^ 2 / (8 * MAGN_CONST) * sumH G (fun a i k => curlE G (fieldsOf m) a i k ^ 2) := by
    unfold memEnergy
    rw [refl.energy hG r1.agree, energy_centred, eH]; rfl
  have hc := curl_le_elec hG hl (fieldsOf m) hw hθ heps
  have hp : 0 ≤ dt ^ 2 / (8 * MAGN_CONST) * sumH G (fun a i k => curlE G (fieldsOf m) a i k ^ 2) :=
    mul_nonneg (by have := MAGN_CONST_pos; positivity) (sumH_nonneg hG fun _ _ _ _ => sq_nonneg _)
  rw [en]
  constructor
  · linarith
  · have : θ * energyE G m = θ * sumE G (fun a i k => fieldsOf m .eps i k * EPSILON0 * fieldsOf m a i k ^ 2 / 2) := rfl
    linarith

/-! ## C51: stability -/

/-- **C51**. No deposits, non-negative conductivity, any permittivity profile not below `e`, a time step within the
limit: after any number of steps the energy of the fields is at most the initial one, up to the fixed factor `1 - θ`. -/
theorem C51_energy_bounded (G : Geom) (hG : G.Valid) (dt e θ : ℝ) (hdt : 0 ≤ dt) (he : 0 < e) (hθ : 0 ≤ θ)
    (hl : StepLimit G dt e θ) (m m' mh mh' : Mem Loc) (n : ℕ) (hm : Initialised G m)
    (hw : WallE G (fieldsOf m))
    (heps : ∀ i k, Box 0 G.nr 0 G.nz i k → e ≤ fieldsOf m .eps i k)
    (hsig : ∀ i k, Box 0 G.nr 0 G.nz i k → 0 ≤ fieldsOf m .sig i k)
    (hrun : FieldRun G dt (fun _ => []) n m m')
    (h1 : RegionRun (Alloc G) (hRegion G dt) m mh)
    (h2 : RegionRun (Alloc G) (hRegion G dt) m' mh') :
    (1 - θ) * energyE G m' + energyH G mh' ≤ energyE G m + energyH G mh := by
  obtain ⟨i1, w1, e1⟩ := run_keeps hG hm hw n m' hrun
  have a1 := (energy_between hG hl hθ hm hw heps h1).1
  have a2 := (energy_between hG hl hθ i1 w1 (fun i k hb => by rw [(e1 i k hb).1]; exact heps i k hb) h2).2
  have a3 := (C11_energy_run G hG dt hdt m m' mh mh' n hm hw
    (fun i k hb => he.trans_le (heps i k hb)) hsig hrun h1 h2).1
  linarith

theorem single_sumE {G : Geom} (hG : G.Valid) {f : Arr → ℤ → ℤ → ℝ}
    (h : ∀ a i k, ENode G a i k → 0 ≤ f a i k) {a : Arr} {i k : ℤ} (hn : ENode G a i k) :
    axisVol G * f a i k ≤ sumE G f := by
  have n1 := hG.nr_ge
  have dr := hG.dr_pos
  have dz := hG.dz_pos
  have hp := PI_pos
  let g : Arr → ℤ → ℤ → ℝ := fun b x y => if b = a ∧ x = i ∧ y = k then f a i k else 0
  have hg : sumE G g ≤ sumE G f := by
    apply sumE_le hG
    intro b x y hb
    simp only [g]
    split_ifs with hc
    · obtain ⟨rfl, rfl, rfl⟩ := hc; exact le_rfl
    · exact h b x y hb
  refine le_trans ?_ hg
  have hf := h a i k hn
  have av : axisVol G = PI * G.dr * G.dr * G.dz / 4 := by unfold axisVol; ring
  have cast : ∀ i : ℤ, 0 ≤ i → (0:ℝ) ≤ (i:ℝ) := fun i hi => by exact_mod_cast hi
  have cast1 : ∀ i : ℤ, 1 ≤ i → (1:ℝ) ≤ (i:ℝ) := fun i hi => by exact_mod_cast hi
  have vol : ∀ x : ℝ, 1 / 2 ≤ x → axisVol G * f a i k ≤ ringVol G x * f a i k := by
    intro x hx
    apply mul_le_mul_of_nonneg_right _ hf
    rw [av]; unfold ringVol
    have : 0 ≤ PI * G.dr * G.dr * G.dz := by positivity
    nlinarith
  have box : ∀ (p q r s : ℤ) (v : ℤ → ℝ) (b : Arr), b ≠ a ∨ ¬ Box p q r s i k →
      sumBox p q r s (fun x y => v x * g b x y) = 0 := by
    intro p q r s v b hb
    apply sumBox_zero
    intro x hx hx'
    apply sum_eq_zero
    intro y hy
    rw [mem_Ico] at hy
    simp only [g]
    rw [if_neg, mul_zero]
    rintro ⟨rfl, rfl, rfl⟩
    rcases hb with hb | hb
    · exact hb rfl
    · exact hb ⟨hx, hx', hy.1, hy.2⟩
  have boxin : ∀ (p q r s : ℤ) (v : ℤ → ℝ), Box p q r s i k →
      sumBox p q r s (fun x y => v x * g a x y) = v i * f a i k := by
    intro p q r s v hb
    unfold sumBox
    rw [sum_eq_single i, sum_eq_single k]
    · simp [g]
    · intro y _ hy; simp [g, hy]
    · intro hy; exact absurd (mem_Ico.2 ⟨hb.2.2.1, hb.2.2.2⟩) hy
    · intro x _ hx
      apply sum_eq_zero; intro y _; simp [g, hx]
    · intro hx; exact absurd (mem_Ico.2 ⟨hb.1, hb.2.1⟩) hx
  have ax : ∀ (hb : a ≠ .ez ∨ i ≠ 0), ∑ y ∈ Ico 0 ((G.nz : ℤ) - 1), axisVol G * g .ez 0 y = 0 := by
    intro hb
    apply sum_eq_zero; intro y _
    simp only [g]
    rw [if_neg, mul_zero]
    rintro ⟨rfl, rfl, -⟩
    simp at hb
  unfold sumE
  cases a <;> simp only [ENode] at hn
  · rw [boxin 0 _ 1 _ (fun x => ringVol G ((x : ℝ) + 1 / 2)) hn, box 1 _ 1 _ (fun x => ringVol G (x : ℝ)) .ephi (by simp),
      box 1 _ 0 _ (fun x => ringVol G (x : ℝ)) .ez (by simp), ax (by simp)]
    have := vol ((i : ℝ) + 1 / 2) (by have := cast i hn.1; linarith)
    linarith
  · rw [box 0 _ 1 _ (fun x => ringVol G ((x : ℝ) + 1 / 2)) .er (by simp), boxin 1 _ 1 _ (fun x => ringVol G (x : ℝ)) hn,
      box 1 _ 0 _ (fun x => ringVol G (x : ℝ)) .ez (by simp), ax (by simp)]
    have := vol (i : ℝ) (by have := cast1 i hn.1; linarith)
    linarith
  · rw [box 0 _ 1 _ (fun x => ringVol G ((x : ℝ) + 1 / 2)) .er (by simp), box 1 _ 1 _ (fun x => ringVol G (x : ℝ)) .ephi (by simp)]
    by_cases hi : i = 0
    · subst hi
      rw [box 1 _ 0 _ (fun x => ringVol G (x : ℝ)) .ez (Or.inr (by simp only [Box]; omega))]
      rw [sum_eq_single k]
      · simp [g]
      · intro y _ hy; simp [g, hy]
      · intro hy; exact absurd (mem_Ico.2 ⟨hn.2.2.1, hn.2.2.2⟩) hy
    · rw [boxin 1 _ 0 _ (fun x => ringVol G (x : ℝ)) (by simp only [Box] at *; omega), ax (Or.inr hi)]
      have := vol (i : ℝ) (by have := cast1 i (by simp only [Box] at hn; omega); linarith)
      linarith

theorem single_sumH {G : Geom} (hG : G.Valid) {f : Arr → ℤ → ℤ → ℝ}
    (h : ∀ a i k, HNode G a i k → 0 ≤ f a i k) {a : Arr} {i k : ℤ} (hn : HNode G a i k)
    (h0 : a = .hr → i ≠ 0) : axisVol G * f a i k ≤ sumH G f := by
  have n1 := hG.nr_ge
  have dr := hG.dr_pos
  have dz := hG.dz_pos
  have hp := PI_pos
  let g : Arr → ℤ → ℤ → ℝ := fun b x y => if b = a ∧ x = i ∧ y = k then f a i k else 0
  have hg : sumH G g ≤ sumH G f := by
    apply sumH_le hG
    intro b x y hb
    simp only [g]
    split_ifs with hc
    · obtain ⟨rfl, rfl, rfl⟩ := hc; exact le_rfl
    · exact h b x y hb
  refine le_trans ?_ hg
  have hf := h a i k hn
  have av : axisVol G = PI * G.dr * G.dr * G.dz / 4 := by unfold axisVol; ring
  have cast : ∀ i : ℤ, 0 ≤ i → (0:ℝ) ≤ (i:ℝ) := fun i hi => by exact_mod_cast hi
  have cast1 : ∀ i : ℤ, 1 ≤ i → (1:ℝ) ≤ (i:ℝ) := fun i hi => by exact_mod_cast hi
  have vol : ∀ x : ℝ, 1 / 2 ≤ x → axisVol G * f a i k ≤ ringVol G x * f a i k := by
    intro x hx
    apply mul_le_mul_of_nonneg_right _ hf
    rw [av]; unfold ringVol
    have : 0 ≤ PI * G.dr * G.dr * G.dz := by positivity
    nlinarith
  have box : ∀ (p q r s : ℤ) (v : ℤ → ℝ) (b : Arr), b ≠ a →
      sumBox p q r s (fun x y => v x * g b x y) = 0 := by
    intro p q r s v b hb
    apply sumBox_zero
    intro x hx hx'
    apply sum_eq_zero
    intro y hy
    simp [g, hb]
  have boxin : ∀ (p q r s : ℤ) (v : ℤ → ℝ), Box p q r s i k →
      sumBox p q r s (fun x y => v x * g a x y) = v i * f a i k := by
    intro p q r s v hb
    unfold sumBox
    rw [sum_eq_single i, sum_eq_single k]
    · simp [g]
    · intro y _ hy; simp [g, hy]
    · intro hy; exact absurd (mem_Ico.2 ⟨hb.2.2.1, hb.2.2.2⟩) hy
    · intro x _ hx
      apply sum_eq_zero; intro y _; simp [g, hx]
    · intro hx; exact absurd (mem_Ico.2 ⟨hb.1, hb.2.1⟩) hx
  unfold sumH
  cases a <;> simp only [HNode] at hn
  · rw [boxin 0 _ 0 _ (fun x => ringVol G (x : ℝ)) hn, box 0 _ 0 _ (fun x => ringVol G ((x : ℝ) + 1 / 2)) .hphi (by simp),
      box 0 _ 0 _ (fun x => ringVol G ((x : ℝ) + 1 / 2)) .hz (by simp)]
    have := h0 rfl
    have := vol (i : ℝ) (by have := cast1 i (by simp only [Box] at hn; omega); linarith)
    linarith
  · rw [box 0 _ 0 _ (fun x => ringVol G (x : ℝ)) .hr (by simp), boxin 0 _ 0 _ (fun x => ringVol G ((x : ℝ) + 1 / 2)) hn,
      box 0 _ 0 _ (fun x => ringVol G ((x : ℝ) + 1 / 2)) .hz (by simp)]
    have := vol ((i : ℝ) + 1 / 2) (by have := cast i hn.1; linarith)
    linarith
  · rw [box 0 _ 0 _ (fun x => ringVol G (x : ℝ)) .hr (by simp), box 0 _ 0 _ (fun x => ringVol G ((x : ℝ) + 1 / 2)) .hphi (by simp),
      boxin 0 _ 0 _ (fun x => ringVol G ((x : ℝ) + 1 / 2)) hn]
    have := vol ((i : ℝ) + 1 / 2) (by have := cast i hn.1; linarith)
    linarith

/-- `H_r` on the axis never changes -/
theorem axis_hr_constant {G : Geom} (hG : G.Valid) {dt : ℝ} {m : Mem Loc} (hm : Initialised G m)
    (hw : WallE G (fieldsOf m)) (n : ℕ) : ∀ m', FieldRun G dt (fun _ => []) n m m' →
    ∀ k : ℤ, 0 ≤ k → k < G.nz - 1 → fieldsOf m' .hr 0 k = fieldsOf m .hr 0 k := by
  have n1 := hG.nr_ge
  induction n with
  | zero => intro m' h; cases h; intros; rfl
  | succ n ih =>
    intro m2 h k hk hk'
    cases h with
    | succ _ _ m1 _ hx hs =>
      obtain ⟨i1, w1, -⟩ := run_keeps hG hm hw n m1 hx
      obtain ⟨-, y, -, u2, r2, -⟩ := fieldStep_spec hG dt (calls := []) (by simp) i1.rep
      rw [← u2 _ hs] at r2
      rw [← ih m1 hx k hk hk', agree_at r2.agree .hr 0 k (by rng) (by rng) (by rng) (by rng)]
      change hStep G dt (fieldsOf m1) .hr 0 k = _
      simp only [hStep]
      rw [if_pos (by simp only [Box]; omega), alphaR, w1.phi_axis k hk (by omega),
        w1.phi_axis (k + 1) (by omega) (by omega)]
      simp

/-- **C51**. With a time step strictly within the limit there is a number, depending on the initial state only, that
no component of the electric or magnetic field ever exceeds, at any node, after any number of steps. -/
theorem C51_fields_bounded (G : Geom) (hG : G.Valid) (dt e θ : ℝ) (hdt : 0 ≤ dt) (he : 0 < e) (hθ : 0 ≤ θ)
    (hθ1 : θ < 1) (hl : StepLimit G dt e θ) (m : Mem Loc) (hm : Initialised G m)
    (hw : WallE G (fieldsOf m))
    (heps : ∀ i k, Box 0 G.nr 0 G.nz i k → e ≤ fieldsOf m .eps i k)
    (hsig : ∀ i k, Box 0 G.nr 0 G.nz i k → 0 ≤ fieldsOf m .sig i k) :
    ∃ B : ℝ, ∀ n m', FieldRun G dt (fun _ => []) n m m' →
      ∀ a i k, ENode G a i k ∨ HNode G a i k → |fieldsOf m' a i k| ≤ B := by
  have n1 := hG.nr_ge
  have dr := hG.dr_pos
  have dz := hG.dz_pos
  have hp := PI_pos
  have h0 := EPSILON0_pos
  have hmu := MAGN_CONST_pos
  have avp : 0 < axisVol G := by unfold axisVol; positivity
  obtain ⟨mh, s1, -⟩ := hRegion_spec hG dt hm.rep
  have h1 := s1.sound.2.1
  set E0 := energyE G m + energyH G mh with hE0
  set S := ∑ k ∈ Ico (0:ℤ) (G.nz - 1), |fieldsOf m .hr 0 k| with hS
  have S0 : 0 ≤ S := sum_nonneg fun _ _ => abs_nonneg _
  set X := 2 * E0 / ((1 - θ) * axisVol G * (e * EPSILON0)) with hX
  set Y := 4 * E0 / ((1 - θ) * axisVol G * MAGN_CONST) with hY
  refine ⟨Real.sqrt X + Real.sqrt Y + S, ?_⟩
  intro n m' hrun a i k hn
  obtain ⟨i1, w1, e1⟩ := run_keeps hG hm hw n m' hrun
  obtain ⟨mh', s2, r2⟩ := hRegion_spec hG dt i1.rep
  have h2 := s2.sound.2.1
  have bound := C51_energy_bounded G hG dt e θ hdt he hθ hl m m' mh mh' n hm hw heps hsig hrun h1 h2
  have heps' : ∀ i k, Box 0 G.nr 0 G.nz i k → e ≤ fieldsOf m' .eps i k :=
    fun i k hb => by rw [(e1 i k hb).1]; exact heps i k hb
  have eE : 0 ≤ energyE G m' := sumE_nonneg hG fun a i k hn => by
    have := heps' i k hn.box
    have : 0 < fieldsOf m' .eps i k := by linarith
    positivity
  have eH : 0 ≤ energyH G mh' := sumH_nonneg hG fun a i k _ => by positivity
  have pθ : 0 < 1 - θ := by linarith
  have sX := Real.sqrt_nonneg X
  have sY := Real.sqrt_nonneg Y
  rcases hn with hn | hn
  · have hs := single_sumE hG (f := fun a i k => fieldsOf m' .eps i k * EPSILON0 * fieldsOf m' a i k ^ 2 / 2)
      (fun a i k hn => by
        have := heps' i k hn.box
        have : 0 < fieldsOf m' .eps i k := by linarith
        positivity) hn
    have hee := heps' i k hn.box
    have key : fieldsOf m' a i k ^ 2 ≤ X := by
      rw [hX, le_div_iff₀ (by positivity)]
      have : axisVol G * (e * EPSILON0 * fieldsOf m' a i k ^ 2 / 2) ≤ energyE G m' := by
        refine le_trans (mul_le_mul_of_nonneg_left ?_ avp.le) hs
        have h3 : 0 ≤ EPSILON0 * fieldsOf m' a i k ^ 2 := by positivity
        nlinarith [mul_le_mul_of_nonneg_right hee h3]
      have := mul_le_mul_of_nonneg_left this pθ.le
      nlinarith
    have := Real.abs_le_sqrt key
    linarith
  · by_cases hax : a = .hr ∧ i = 0
    · obtain ⟨rfl, rfl⟩ := hax
      simp only [HNode] at hn
      rw [axis_hr_constant hG hm hw n m' hrun k hn.2.2.1 hn.2.2.2]
      have := single_le_sum (f := fun k => |fieldsOf m .hr 0 k|) (fun _ _ => abs_nonneg _)
        (mem_Ico.2 ⟨hn.2.2.1, hn.2.2.2⟩)
      linarith
    · have hs := single_sumH hG (f := fun a i k => MAGN_CONST * fieldsOf m' a i k ^ 2 / 2)
        (fun a i k _ => by positivity) hn (fun h1 h2 => hax ⟨h1, h2⟩)
      have hsum : sumH G (fun a i k => MAGN_CONST * fieldsOf m' a i k ^ 2 / 2) ≤
          2 * energyH G mh' + 2 * (θ * energyE G m') := by
        have c1 := curl_le_elec hG hl (fieldsOf m') w1 hθ heps'
        have c2 : sumH G (fun a i k => MAGN_CONST * fieldsOf m' a i k ^ 2 / 2) ≤
            dt ^ 2 / (4 * MAGN_CONST) * sumH G (fun a i k => curlE G (fieldsOf m') a i k ^ 2) +
            sumH G (fun a i k => 2 * (MAGN_CONST * fieldsOf mh' (halfOf a) i k ^ 2 / 2)) := by
          rw [← sumH_lin]
          apply sumH_le hG
          intro a i k hn
          rw [← s2.sound.2.2 _ h2] at r2
          have : fieldsOf mh' (halfOf a) i k = hStep G dt (fieldsOf m') (halfOf a) i k := by
            cases a <;> simp only [HNode, Box] at hn
            · exact agree_at r2.agree .hrh i k (by rng) (by rng) (by rng) (by rng)
            · exact agree_at r2.agree .hphih i k (by rng) (by rng) (by rng) (by rng)
            · exact agree_at r2.agree .hzh i k (by rng) (by rng) (by rng) (by rng)
          rw [this, hStep_half _ hn]
          have : dt ^ 2 / (4 * MAGN_CONST) * curlE G (fieldsOf m') a i k ^ 2 +
              2 * (MAGN_CONST * (fieldsOf m' a i k + dt / (2 * MAGN_CONST) * curlE G (fieldsOf m') a i k) ^ 2 / 2)
              - MAGN_CONST * fieldsOf m' a i k ^ 2 / 2 =
              MAGN_CONST / 2 * (fieldsOf m' a i k + dt / MAGN_CONST * curlE G (fieldsOf m') a i k) ^ 2 := by
            field_simp
            ring
          have h3 : 0 ≤ MAGN_CONST / 2 * (fieldsOf m' a i k + dt / MAGN_CONST * curlE G (fieldsOf m') a i k) ^ 2 := by
            positivity
          linarith
        rw [sumH_mul] at c2
        have c3 : dt ^ 2 / (4 * MAGN_CONST) * sumH G (fun a i k => curlE G (fieldsOf m') a i k ^ 2) =
            2 * (dt ^ 2 / (8 * MAGN_CONST) * sumH G (fun a i k => curlE G (fieldsOf m') a i k ^ 2)) := by ring
        have c4 : θ * energyE G m' =
            θ * sumE G (fun a i k => fieldsOf m' .eps i k * EPSILON0 * fieldsOf m' a i k ^ 2 / 2) := rfl
        have c5 : energyH G mh' = sumH G (fun a i k => MAGN_CONST * fieldsOf mh' (halfOf a) i k ^ 2 / 2) := rfl
        rw [c3] at c2
        rw [c4, c5]
        linarith
      have key : fieldsOf m' a i k ^ 2 ≤ Y := by
        rw [hY, le_div_iff₀ (by positivity)]
        have t1 : axisVol G * (MAGN_CONST * fieldsOf m' a i k ^ 2 / 2) ≤ 2 * energyH G mh' + 2 * (θ * energyE G m') :=
          hs.trans hsum
        have t2 : (1 - θ) * (2 * energyH G mh' + 2 * (θ * energyE G m')) ≤ 2 * E0 := by
          have u1 : θ * ((1 - θ) * energyE G m') ≤ (1 - θ) * energyE G m' := by
            have : 0 ≤ (1 - θ) * energyE G m' := by positivity
            nlinarith
          nlinarith
        have := mul_le_mul_of_nonneg_left t1 pθ.le
        nlinarith
      have := Real.abs_le_sqrt key
      linarith

/-! ## The accepted time steps are not all stable -/

/-- 3 x 3 nodes, both steps 370 km -/
noncomputable def coarseGeom : Geom := ⟨740000, 740000, 3, 3, 370000, 370000⟩

theorem coarseGeom_valid : coarseGeom.Valid := by constructor <;> norm_num [coarseGeom]

/-- 98 % of the largest time step the checks accept on `coarseGeom` -/
noncomputable def coarseDt : ℝ := 370000 * Real.sqrt (27 / 28 * EPSILON0 * MAGN_CONST)

theorem coarseDt_sq : coarseDt ^ 2 = 370000 ^ 2 * (27 / 28 * EPSILON0 * MAGN_CONST) := by
  have := EPSILON0_pos; have := MAGN_CONST_pos
  unfold coarseDt; rw [mul_pow, Real.sq_sqrt (by positivity)]

theorem coarseDt_pos : 0 < coarseDt := by
  have := EPSILON0_pos; have := MAGN_CONST_pos
  unfold coarseDt; positivity

theorem coarseDt_le : coarseDt ≤ 370000 / LIGHT_SPEED := by
  have hc := LIGHT_SPEED_pos
  apply le_of_sq_le_sq _ (by positivity)
  rw [coarseDt_sq]
  unfold LIGHT_SPEED EPSILON0 MAGN_CONST; norm_num

/-- Vacuum, `E_phi = 1` at the only inner node, every other field zero -/
noncomputable def coarseFields : Fields
  | .ephi, i, k => if i = 1 ∧ k = 1 then 1 else 0
  | .eps, _, _ => 1
  | _, _, _ => 0

/-- memory holding `coarseFields` -/
noncomputable def coarseMem : Mem Loc := fun l => some (coarseFields l.arr l.i l.k)

theorem coarseMem_initialised : Initialised coarseGeom coarseMem := fun _ _ => rfl

theorem coarseMem_wall : WallE coarseGeom (fieldsOf coarseMem) := by
  constructor <;> intros <;> simp [fieldsOf, coarseMem, coarseFields, coarseGeom]

/-- the state after `n` steps -/
theorem coarse_run (n : ℕ) : ∀ m', FieldRun coarseGeom coarseDt (fun _ => []) n coarseMem m' →
    fieldsOf m' .ephi 1 1 = 2 * (-2) ^ n - (-1 / 2) ^ n ∧
    fieldsOf m' .hr 1 1 - fieldsOf m' .hr 1 0 =
      4 / 3 * ((-2) ^ n - (-1 / 2) ^ n) * (coarseDt / (370000 * MAGN_CONST)) ∧
    fieldsOf m' .hz 1 1 - fieldsOf m' .hz 0 1 =
      -(16 / 9 * ((-2) ^ n - (-1 / 2) ^ n) * (coarseDt / (370000 * MAGN_CONST))) := by
  have hG := coarseGeom_valid
  induction n with
  | zero => intro m' h; cases h; norm_num [fieldsOf, coarseMem, coarseFields]
  | succ n ih =>
    intro m2 h
    cases h with
    | succ _ _ m1 _ hx hs =>
      obtain ⟨h1, h2, h3⟩ := ih m1 hx
      obtain ⟨i1, w1, e1⟩ := run_keeps hG coarseMem_initialised coarseMem_wall n m1 hx
      obtain ⟨-, y, -, u2, r2, -⟩ := fieldStep_spec hG coarseDt (calls := []) (by simp) i1.rep
      rw [← u2 _ hs] at r2
      have n3 : (coarseGeom.nr : ℤ) = 3 := rfl
      have n4 : (coarseGeom.nz : ℤ) = 3 := rfl
      have d1 : coarseGeom.dr = 370000 := rfl
      have d2 : coarseGeom.dz = 370000 := rfl
      obtain ⟨eps1, sig1⟩ := e1 1 1 (by simp [Box, n3, n4])
      have eps2 : fieldsOf m1 .eps 1 1 = 1 := eps1
      have sig2 : fieldsOf m1 .sig 1 1 = 0 := sig1
      have wa := w1.phi_axis 1 (by omega) (by omega)
      have wb := w1.phi_left 1 (by omega) (by omega)
      have wc := w1.phi_right 1 (by omega) (by omega)
      have wd := w1.phi_outer 1 (by omega) (by omega)
      rw [n4] at wc
      rw [n3] at wd
      norm_num at wc wd
      set F := fieldsOf m1 with hF
      set H := hStep coarseGeom coarseDt F with hH
      have a1 : H .hr 1 1 = F .hr 1 1 + coarseDt * (0 - F .ephi 1 1) / (370000 * MAGN_CONST) := by
        simp only [hH, hStep]; rw [if_pos (by simp [Box, n3, n4]), alphaR, d2]; norm_num [wc]
      have a2 : H .hr 1 0 = F .hr 1 0 + coarseDt * (F .ephi 1 1 - 0) / (370000 * MAGN_CONST) := by
        simp only [hH, hStep]; rw [if_pos (by simp [Box, n3, n4]), alphaR, d2]; norm_num [wb]
      have a3 : H .hz 1 1 = F .hz 1 1 - coarseDt * ((0 + F .ephi 1 1) / (2 * 370000 * (3 / 2)) + (0 - F .ephi 1 1) / 370000) / MAGN_CONST := by
        simp only [hH, hStep]; rw [if_pos (by simp [Box, n3, n4]), alphaZ, d1]; norm_num [wd]
      have a4 : H .hz 0 1 = F .hz 0 1 - coarseDt * ((F .ephi 1 1 + 0) / (2 * 370000 * (1 / 2)) + (F .ephi 1 1 - 0) / 370000) / MAGN_CONST := by
        simp only [hH, hStep]; rw [if_pos (by simp [Box, n3, n4]), alphaZ, d1]; norm_num [wa]
      have b1 : fieldsOf m2 .hr 1 1 = H .hr 1 1 := agree_at r2.agree .hr 1 1 (by omega) (by simp [Arr.initRows, n3]) (by omega) (by simp [Arr.initCols, n4])
      have b2 : fieldsOf m2 .hr 1 0 = H .hr 1 0 := agree_at r2.agree .hr 1 0 (by omega) (by simp [Arr.initRows, n3]) (by omega) (by simp [Arr.initCols, n4])
      have b3 : fieldsOf m2 .hz 1 1 = H .hz 1 1 := agree_at r2.agree .hz 1 1 (by omega) (by simp [Arr.initRows, n3]) (by omega) (by simp [Arr.initCols, n4])
      have b4 : fieldsOf m2 .hz 0 1 = H .hz 0 1 := agree_at r2.agree .hz 0 1 (by omega) (by simp [Arr.initRows, n3]) (by omega) (by simp [Arr.initCols, n4])
      have hm := MAGN_CONST_pos.ne'
      have he := EPSILON0_pos.ne'
      have c1 : H .hr 1 1 - H .hr 1 0 =
          4 / 3 * ((-2) ^ (n + 1) - (-1 / 2) ^ (n + 1)) * (coarseDt / (370000 * MAGN_CONST)) := by
        have : H .hr 1 1 - H .hr 1 0 = (F .hr 1 1 - F .hr 1 0) - 2 * F .ephi 1 1 * (coarseDt / (370000 * MAGN_CONST)) := by
          rw [a1, a2]; ring
        rw [this, h2, h1]; ring
      have c2 : H .hz 1 1 - H .hz 0 1 =
          -(16 / 9 * ((-2) ^ (n + 1) - (-1 / 2) ^ (n + 1)) * (coarseDt / (370000 * MAGN_CONST))) := by
        have : H .hz 1 1 - H .hz 0 1 = (F .hz 1 1 - F .hz 0 1) + 8 / 3 * F .ephi 1 1 * (coarseDt / (370000 * MAGN_CONST)) := by
          rw [a3, a4]; field_simp; ring
        rw [this, h3, h1]; ring
      refine ⟨?_, by rw [b1, b2, c1], by rw [b3, b4, c2]⟩
      rw [agree_at r2.agree .ephi 1 1 (by omega) (by simp [Arr.initRows, n3]) (by omega) (by simp [Arr.initCols, n4])]
      change eStep coarseGeom coarseDt (withJ H (callSum [] .jr) (callSum [] .jphi) (callSum [] .jz)) .ephi 1 1 = _
      simp only [eStep]
      rw [if_pos (by simp [Box, n3, n4])]
      unfold newEphi kE kH
      simp only [withJ]
      have z1 : callSum [] .jphi 1 1 = 0 := by simp [callSum]
      have z2 : H .eps 1 1 = 1 := eps2
      have z3 : H .sig 1 1 = 0 := sig2
      have z4 : H .ephi 1 1 = F .ephi 1 1 := rfl
      have k1 : koefE 1 0 coarseDt = 1 := by unfold koefE; field_simp; ring
      have k2 : koefH 1 0 coarseDt = coarseDt / EPSILON0 := by unfold koefH; field_simp; ring
      rw [z1, z2, z3, z4, d1, d2, k1, k2, show (1:ℤ) - 1 = 0 by rfl, c1, c2, h1]
      have sq := coarseDt_sq
      have e1 : ∀ x y : ℝ, x * 1 - (0 - 4 / 3 * y * (coarseDt / (370000 * MAGN_CONST)) / 370000 +
          -(16 / 9 * y * (coarseDt / (370000 * MAGN_CONST))) / 370000) * (coarseDt / EPSILON0) =
          x + 28 / 9 * y * (coarseDt ^ 2 / (370000 ^ 2 * (EPSILON0 * MAGN_CONST))) := by
        intro x y; field_simp; ring
      rw [e1, sq]
      have e2 : (370000:ℝ) ^ 2 * (27 / 28 * EPSILON0 * MAGN_CONST) / (370000 ^ 2 * (EPSILON0 * MAGN_CONST)) = 27 / 28 := by
        field_simp
      rw [e2, pow_succ, pow_succ]
      ring

/-- **C36** is violated with respect to stability: on the accepted configuration
`coarseGeom`, `coarseDt` the azimuthal electric field of a vacuum without sources at least doubles in every step. -/
theorem C36_accepted_step_unstable_violated : coarseGeom.Valid ∧ 0 < coarseDt ∧
    checkConfig 0 coarseGeom [sampleElectrons] coarseDt = some () ∧
    Initialised coarseGeom coarseMem ∧ WallE coarseGeom (fieldsOf coarseMem) ∧
    (∀ i k, fieldsOf coarseMem .eps i k = 1 ∧ fieldsOf coarseMem .sig i k = 0) ∧
    ∀ n, (∃ m', FieldRun coarseGeom coarseDt (fun _ => []) n coarseMem m') ∧
      ∀ m', FieldRun coarseGeom coarseDt (fun _ => []) n coarseMem m' →
        (2 : ℝ) ^ n ≤ |fieldsOf m' .ephi 1 1| := by
  refine ⟨coarseGeom_valid, coarseDt_pos, ?_, coarseMem_initialised, coarseMem_wall, fun _ _ => ⟨rfl, rfl⟩, ?_⟩
  · have hd := coarseDt_le
    apply sample_accepted
    · exact hd
    · exact hd
    · refine hd.trans ?_; unfold LIGHT_SPEED; norm_num
    all_goals norm_num [coarseGeom]
  · intro n
    obtain ⟨m', h, -⟩ := fieldRun_spec coarseGeom_valid coarseDt (calls := fun _ => []) (by simp)
      coarseMem_initialised.rep n
    refine ⟨⟨m', h⟩, ?_⟩
    intro m' h
    rw [(coarse_run n m' h).1]
    have h1 : |(2:ℝ) * (-2) ^ n| = 2 * 2 ^ n := by rw [abs_mul, abs_pow]; norm_num
    have h2 : |(-1 / 2 : ℝ) ^ n| ≤ 1 := by
      rw [abs_pow]; apply pow_le_one₀ (abs_nonneg _); rw [abs_le]; constructor <;> norm_num
    have h3 := abs_sub_abs_le_abs_sub ((2:ℝ) * (-2) ^ n) ((-1 / 2) ^ n)
    have h4 : (1:ℝ) ≤ 2 ^ n := one_le_pow₀ (by norm_num)
    linarith

/-- C51: the bound applies to the fields of `coarseMem` with half the accepted time step; `θ = 3/5`. -/
example : StepLimit coarseGeom (coarseDt / 2) 1 (3 / 5) ∧
    (∀ i k, Box 0 coarseGeom.nr 0 coarseGeom.nz i k → 1 ≤ fieldsOf coarseMem .eps i k) ∧
    ∃ B : ℝ, ∀ n m', FieldRun coarseGeom (coarseDt / 2) (fun _ => []) n coarseMem m' →
      |fieldsOf m' .ephi 1 1| ≤ B := by
  have hl : StepLimit coarseGeom (coarseDt / 2) 1 (3 / 5) := by
    unfold StepLimit
    rw [div_pow, coarseDt_sq]
    have := EPSILON0_pos; have := MAGN_CONST_pos
    have h : 0 < EPSILON0 * MAGN_CONST := by positivity
    norm_num [coarseGeom]
    nlinarith
  refine ⟨hl, fun _ _ _ => le_rfl, ?_⟩
  obtain ⟨B, hB⟩ := C51_fields_bounded coarseGeom coarseGeom_valid (coarseDt / 2) 1 (3 / 5)
    (by have := coarseDt_pos; linarith) one_pos (by norm_num) (by norm_num) hl coarseMem
    coarseMem_initialised coarseMem_wall (fun _ _ _ => le_rfl) (fun _ _ _ => le_rfl)
  exact ⟨B, fun n m' h => hB n m' h .ephi 1 1 (Or.inl (by norm_num [ENode, Box, coarseGeom]))⟩

end Verif
