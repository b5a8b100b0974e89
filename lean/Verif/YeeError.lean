import Verif.StableProps
import Mathlib.Algebra.QuadraticDiscriminant

/-!
# Growth of an error of the fields over one step (for C96)
-/

namespace Verif

open Finset

/-- bilinear form of the conserved energy, at the time of the electric field -/
noncomputable def eForm (G : Geom) (dt : ℝ) (ep : Grid) (x y : Fields) : ℝ :=
  sumE G (fun a i k => ep i k * EPSILON0 * (x a i k * y a i k) / 2) +
  (sumH G (fun a i k => MAGN_CONST * ((x a i k + dt / (2 * MAGN_CONST) * curlE G x a i k) *
      (y a i k + dt / (2 * MAGN_CONST) * curlE G y a i k)) / 2) -
    dt ^ 2 / (8 * MAGN_CONST) * sumH G (fun a i k => curlE G x a i k * curlE G y a i k))

/-- fields with the given material constants -/
def withMed (ep sg : Grid) (x : Fields) : Fields
  | .eps, i, k => ep i k
  | .sig, i, k => sg i k
  | a, i, k => x a i k

theorem withMed_E {G : Geom} {a : Arr} {i k : ℤ} (h : ENode G a i k) (ep sg : Grid) (x : Fields) :
    withMed ep sg x a i k = x a i k := by
  cases a <;> simp only [ENode] at h <;> rfl

theorem withMed_H {G : Geom} {a : Arr} {i k : ℤ} (h : HNode G a i k) (ep sg : Grid) (x : Fields) :
    withMed ep sg x a i k = x a i k := by
  cases a <;> simp only [HNode] at h <;> rfl

theorem withMed_curlE (G : Geom) (ep sg : Grid) (x : Fields) : curlE G (withMed ep sg x) = curlE G x := by
  funext a i k; cases a <;> rfl

theorem withMed_wall {G : Geom} {x : Fields} (h : WallE G x) (ep sg : Grid) : WallE G (withMed ep sg x) :=
  ⟨h.1, h.2, h.3, h.4, h.5, h.6, h.7⟩

theorem eForm_energy {G : Geom} (hG : G.Valid) (dt : ℝ) (F : Fields) :
    energy G F (hStep G dt F) = eForm G dt (F .eps) F F := by
  rw [energy_centred]
  unfold eForm
  have h1 : sumE G (fun a i k => F .eps i k * EPSILON0 * F a i k ^ 2 / 2) =
      sumE G (fun a i k => F .eps i k * EPSILON0 * (F a i k * F a i k) / 2) :=
    sumE_congr hG fun a i k _ => by ring
  have h2 : sumH G (fun a i k => MAGN_CONST * hStep G dt F (halfOf a) i k ^ 2 / 2) =
      sumH G (fun a i k => MAGN_CONST * ((F a i k + dt / (2 * MAGN_CONST) * curlE G F a i k) *
      (F a i k + dt / (2 * MAGN_CONST) * curlE G F a i k)) / 2) :=
    sumH_congr fun a i k hn => by rw [hStep_half F hn]; ring
  have h3 : sumH G (fun a i k => curlE G F a i k ^ 2) = sumH G (fun a i k => curlE G F a i k * curlE G F a i k) :=
    sumH_congr fun a i k _ => by ring
  rw [h1, h2, h3]; ring

theorem eForm_withMed {G : Geom} (hG : G.Valid) (dt : ℝ) (ep sg : Grid) (x : Fields) :
    eForm G dt ep (withMed ep sg x) (withMed ep sg x) = eForm G dt ep x x := by
  unfold eForm
  rw [withMed_curlE]
  have h1 : sumE G (fun a i k => ep i k * EPSILON0 * (withMed ep sg x a i k * withMed ep sg x a i k) / 2) =
      sumE G (fun a i k => ep i k * EPSILON0 * (x a i k * x a i k) / 2) :=
    sumE_congr hG fun a i k hn => by rw [withMed_E hn]
  have h2 : sumH G (fun a i k => MAGN_CONST * ((withMed ep sg x a i k + dt / (2 * MAGN_CONST) * curlE G x a i k) *
      (withMed ep sg x a i k + dt / (2 * MAGN_CONST) * curlE G x a i k)) / 2) =
      sumH G (fun a i k => MAGN_CONST * ((x a i k + dt / (2 * MAGN_CONST) * curlE G x a i k) *
      (x a i k + dt / (2 * MAGN_CONST) * curlE G x a i k)) / 2) :=
    sumH_congr fun a i k hn => by rw [withMed_H hn]
  rw [h1, h2]

theorem curlE_lin (G : Geom) (c : ℝ) (x y : Fields) (a : Arr) (i k : ℤ) :
    curlE G (fun a i k => c * x a i k + y a i k) a i k = c * curlE G x a i k + curlE G y a i k := by
  cases a <;> simp only [curlE] <;> ring

theorem eForm_lin {G : Geom} (hG : G.Valid) (dt : ℝ) (ep : Grid) (c : ℝ) (x y w : Fields) :
    eForm G dt ep (fun a i k => c * x a i k + y a i k) w = c * eForm G dt ep x w + eForm G dt ep y w := by
  unfold eForm
  simp only [curlE_lin]
  have h1 : sumE G (fun a i k => ep i k * EPSILON0 * ((c * x a i k + y a i k) * w a i k) / 2) =
      c * sumE G (fun a i k => ep i k * EPSILON0 * (x a i k * w a i k) / 2) +
        sumE G (fun a i k => ep i k * EPSILON0 * (y a i k * w a i k) / 2) := by
    rw [← sumE_lin]; exact sumE_congr hG fun a i k _ => by ring
  have h2 : sumH G (fun a i k => MAGN_CONST * ((c * x a i k + y a i k +
        dt / (2 * MAGN_CONST) * (c * curlE G x a i k + curlE G y a i k)) *
        (w a i k + dt / (2 * MAGN_CONST) * curlE G w a i k)) / 2) =
      c * sumH G (fun a i k => MAGN_CONST * ((x a i k + dt / (2 * MAGN_CONST) * curlE G x a i k) *
        (w a i k + dt / (2 * MAGN_CONST) * curlE G w a i k)) / 2) +
      sumH G (fun a i k => MAGN_CONST * ((y a i k + dt / (2 * MAGN_CONST) * curlE G y a i k) *
        (w a i k + dt / (2 * MAGN_CONST) * curlE G w a i k)) / 2) := by
    rw [← sumH_lin]; exact sumH_congr fun a i k _ => by ring
  have h3 : sumH G (fun a i k => (c * curlE G x a i k + curlE G y a i k) * curlE G w a i k) =
      c * sumH G (fun a i k => curlE G x a i k * curlE G w a i k) +
      sumH G (fun a i k => curlE G y a i k * curlE G w a i k) := by
    rw [← sumH_lin]; exact sumH_congr fun a i k _ => by ring
  rw [h1, h2, h3]; ring

theorem eForm_comm {G : Geom} (hG : G.Valid) (dt : ℝ) (ep : Grid) (x y : Fields) :
    eForm G dt ep x y = eForm G dt ep y x := by
  unfold eForm
  congr 1
  · exact sumE_congr hG fun a i k _ => by ring
  · congr 1
    · exact sumH_congr fun a i k _ => by ring
    · congr 1; exact sumH_congr fun a i k _ => by ring

/-- the form without its mixed terms bounds the fields -/
theorem eForm_lower {G : Geom} (hG : G.Valid) {dt e θ : ℝ} (hl : StepLimit G dt e θ) (hθ : 0 ≤ θ) {ep : Grid}
    (hep : ∀ i k, Box 0 G.nr 0 G.nz i k → e ≤ ep i k) {x : Fields} (hw : WallE G x) :
    (1 - θ) * sumE G (fun a i k => ep i k * EPSILON0 * x a i k ^ 2 / 2) +
      sumH G (fun a i k => MAGN_CONST * (x a i k + dt / (2 * MAGN_CONST) * curlE G x a i k) ^ 2 / 2) ≤
      eForm G dt ep x x := by
  have hc := curl_le_elec hG hl (withMed ep ep x) (withMed_wall hw ep ep) hθ (fun i k hb => hep i k hb)
  rw [withMed_curlE] at hc
  have h1 : sumE G (fun a i k => withMed ep ep x .eps i k * EPSILON0 * withMed ep ep x a i k ^ 2 / 2) =
      sumE G (fun a i k => ep i k * EPSILON0 * x a i k ^ 2 / 2) :=
    sumE_congr hG fun a i k hn => by rw [withMed_E hn]; rfl
  rw [h1] at hc
  unfold eForm
  have h2 : sumE G (fun a i k => ep i k * EPSILON0 * (x a i k * x a i k) / 2) =
      sumE G (fun a i k => ep i k * EPSILON0 * x a i k ^ 2 / 2) :=
    sumE_congr hG fun a i k _ => by ring
  have h3 : sumH G (fun a i k => MAGN_CONST * ((x a i k + dt / (2 * MAGN_CONST) * curlE G x a i k) *
      (x a i k + dt / (2 * MAGN_CONST) * curlE G x a i k)) / 2) =
      sumH G (fun a i k => MAGN_CONST * (x a i k + dt / (2 * MAGN_CONST) * curlE G x a i k) ^ 2 / 2) :=
    sumH_congr fun a i k _ => by ring
  have h4 : sumH G (fun a i k => curlE G x a i k * curlE G x a i k) = sumH G (fun a i k => curlE G x a i k ^ 2) :=
    sumH_congr fun a i k _ => by ring
  rw [h2, h3, h4]
  linarith

/-- everything under which the form is an energy -/
structure FormOk (G : Geom) (dt e θ : ℝ) (ep : Grid) : Prop where
  valid : G.Valid
  e_pos : 0 < e
  theta : 0 ≤ θ
  theta1 : θ ≤ 1
  limit : StepLimit G dt e θ
  eps : ∀ i k, Box 0 G.nr 0 G.nz i k → e ≤ ep i k

theorem FormOk.elec_nonneg {G : Geom} {dt e θ : ℝ} {ep : Grid} (h : FormOk G dt e θ ep) (x : Fields) :
    0 ≤ sumE G (fun a i k => ep i k * EPSILON0 * x a i k ^ 2 / 2) :=
  sumE_nonneg h.valid fun a i k hn => by
    have := h.eps i k hn.box
    have := h.e_pos
    have := EPSILON0_pos
    have : 0 ≤ ep i k := by linarith
    positivity

theorem FormOk.nonneg {G : Geom} {dt e θ : ℝ} {ep : Grid} (h : FormOk G dt e θ ep) {x : Fields} (hw : WallE G x) :
    0 ≤ eForm G dt ep x x := by
  have a := eForm_lower h.valid h.limit h.theta h.eps hw
  have b := h.elec_nonneg x
  have c : 0 ≤ sumH G (fun a i k => MAGN_CONST * (x a i k + dt / (2 * MAGN_CONST) * curlE G x a i k) ^ 2 / 2) :=
    sumH_nonneg h.valid fun a i k _ => by have := MAGN_CONST_pos; positivity
  have d := mul_nonneg (sub_nonneg.2 h.theta1) b
  linarith

theorem WallE.lin {G : Geom} {x y : Fields} (hx : WallE G x) (hy : WallE G y) (c : ℝ) :
    WallE G (fun a i k => c * x a i k + y a i k) := by
  constructor
  · intro k p q; rw [hx.1 k p q, hy.1 k p q]; ring
  · intro k p q; rw [hx.2 k p q, hy.2 k p q]; ring
  · intro k p q; rw [hx.3 k p q, hy.3 k p q]; ring
  · intro k p q; rw [hx.4 k p q, hy.4 k p q]; ring
  · intro k p q; rw [hx.5 k p q, hy.5 k p q]; ring
  · intro k p q; rw [hx.6 k p q, hy.6 k p q]; ring
  · intro k p q; rw [hx.7 k p q, hy.7 k p q]; ring

theorem FormOk.expand {G : Geom} {dt e θ : ℝ} {ep : Grid} (h : FormOk G dt e θ ep) (x y : Fields) (c : ℝ) :
    eForm G dt ep (fun a i k => c * x a i k + y a i k) (fun a i k => c * x a i k + y a i k) =
      eForm G dt ep x x * (c * c) + 2 * eForm G dt ep x y * c + eForm G dt ep y y := by
  rw [eForm_lin h.valid, eForm_comm h.valid dt ep x, eForm_comm h.valid dt ep y, eForm_lin h.valid,
    eForm_lin h.valid, eForm_comm h.valid dt ep y x]
  ring

theorem FormOk.cauchy {G : Geom} {dt e θ : ℝ} {ep : Grid} (h : FormOk G dt e θ ep) {x y : Fields}
    (hx : WallE G x) (hy : WallE G y) :
    eForm G dt ep x y ^ 2 ≤ eForm G dt ep x x * eForm G dt ep y y := by
  have := discrim_le_zero (a := eForm G dt ep x x) (b := 2 * eForm G dt ep x y) (c := eForm G dt ep y y) (fun c => by
    rw [← h.expand]; exact h.nonneg (hx.lin hy c))
  unfold discrim at this
  nlinarith

/-- the energy norm meets the triangle inequality -/
theorem FormOk.triangle {G : Geom} {dt e θ : ℝ} {ep : Grid} (h : FormOk G dt e θ ep) {x y : Fields}
    (hx : WallE G x) (hy : WallE G y) :
    Real.sqrt (eForm G dt ep (fun a i k => 1 * x a i k + y a i k) (fun a i k => 1 * x a i k + y a i k)) ≤
      Real.sqrt (eForm G dt ep x x) + Real.sqrt (eForm G dt ep y y) := by
  have p := h.nonneg hx
  have q := h.nonneg hy
  have c := h.cauchy hx hy
  have e1 : eForm G dt ep x y ≤ Real.sqrt (eForm G dt ep x x) * Real.sqrt (eForm G dt ep y y) := by
    rw [← Real.sqrt_mul p]; exact Real.le_sqrt_of_sq_le c
  rw [Real.sqrt_le_left (by positivity), h.expand, add_sq, Real.sq_sqrt p, Real.sq_sqrt q]
  nlinarith

/-- the electric update reads updated magnetic nodes only -/
theorem curlH_congr {G : Geom} {x y : Fields} (h : ∀ a i k, HNode G a i k → x a i k = y a i k) {a : Arr}
    {i k : ℤ} (hn : ENode G a i k) : curlH G x a i k = curlH G y a i k := by
  cases a <;> simp only [ENode, Box] at hn <;> simp only [curlH]
  · rw [h .hphi i k (by simp only [HNode, Box]; omega), h .hphi i (k - 1) (by simp only [HNode, Box]; omega)]
  · rw [h .hr i k (by simp only [HNode, Box]; omega), h .hr i (k - 1) (by simp only [HNode, Box]; omega),
      h .hz i k (by simp only [HNode, Box]; omega), h .hz (i - 1) k (by simp only [HNode, Box]; omega)]
  · split_ifs with hi
    · rw [h .hphi i k (by simp only [HNode, Box]; omega)]
    · rw [h .hphi i k (by simp only [HNode, Box]; omega), h .hphi (i - 1) k (by simp only [HNode, Box]; omega)]

/-- a disturbance of the magnetic field only -/
theorem eForm_magnetic {G : Geom} (hG : G.Valid) (dt : ℝ) (ep : Grid) {w : Fields}
    (he : ∀ i k, w .er i k = 0 ∧ w .ephi i k = 0 ∧ w .ez i k = 0) :
    eForm G dt ep w w = sumH G (fun a i k => MAGN_CONST * w a i k ^ 2 / 2) := by
  have c0 : ∀ a i k, curlE G w a i k = 0 := by
    intro a i k
    cases a <;> simp [curlE, he]
  unfold eForm
  simp only [c0]
  have h1 : sumE G (fun a i k => ep i k * EPSILON0 * (w a i k * w a i k) / 2) = 0 := by
    have : sumE G (fun a i k => ep i k * EPSILON0 * (w a i k * w a i k) / 2) = sumE G (fun _ _ _ => 0 * 0) := by
      apply sumE_congr hG
      intro a i k hn
      have : w a i k = 0 := by cases a <;> simp only [ENode] at hn <;> simp [he]
      rw [this]; ring
    rw [this, sumE_mul, zero_mul]
  have h3 : sumH G (fun _ _ _ => (0 : ℝ) * 0) = 0 := by rw [sumH_mul, zero_mul]
  rw [h1, h3]
  have : sumH G (fun a i k => MAGN_CONST * ((w a i k + dt / (2 * MAGN_CONST) * 0) *
      (w a i k + dt / (2 * MAGN_CONST) * 0)) / 2) = sumH G (fun a i k => MAGN_CONST * w a i k ^ 2 / 2) :=
    sumH_congr fun a i k _ => by ring
  rw [this]; ring

/-- a disturbance of the electric field only -/
theorem eForm_electric {G : Geom} (hG : G.Valid) (dt : ℝ) (ep : Grid) {w : Fields}
    (hh : ∀ a i k, HNode G a i k → w a i k = 0) :
    eForm G dt ep w w = sumE G (fun a i k => ep i k * EPSILON0 * w a i k ^ 2 / 2) := by
  have hm := MAGN_CONST_pos
  unfold eForm
  have h1 : sumH G (fun a i k => MAGN_CONST * ((w a i k + dt / (2 * MAGN_CONST) * curlE G w a i k) *
      (w a i k + dt / (2 * MAGN_CONST) * curlE G w a i k)) / 2) =
      dt ^ 2 / (8 * MAGN_CONST) * sumH G (fun a i k => curlE G w a i k * curlE G w a i k) := by
    rw [← sumH_mul]
    apply sumH_congr
    intro a i k hn
    rw [hh a i k hn]
    field_simp
    ring
  rw [h1, sub_self, add_zero]
  exact sumE_congr hG fun a i k _ => by ring

/-- **Growth over one step**: the fields `x` of one step and `x'` of the next one, up to a residual `tH` of the
magnetic and `tE` of the electric update. -/
theorem FormOk.growth {G : Geom} {dt e θ : ℝ} {ep sg : Grid} (h : FormOk G dt e θ ep) (hdt : 0 ≤ dt)
    (hsg : ∀ i k, Box 0 G.nr 0 G.nz i k → 0 ≤ sg i k) {x x' tH tE : Fields} (hw : WallE G x) (hw' : WallE G x')
    (hH : ∀ a i k, HNode G a i k → x' a i k = x a i k + dt / MAGN_CONST * curlE G x a i k + tH a i k)
    (hE : ∀ a i k, ENode G a i k → x' a i k * (2 * ep i k * EPSILON0 + sg i k * dt) =
      x a i k * (2 * ep i k * EPSILON0 - sg i k * dt) + 2 * dt * (curlH G x' a i k + tE a i k)) :
    Real.sqrt (eForm G dt ep x' x') ≤ Real.sqrt (eForm G dt ep x x) +
      Real.sqrt (sumH G (fun a i k => MAGN_CONST * tH a i k ^ 2 / 2)) +
      Real.sqrt (sumE G (fun a i k => ep i k * EPSILON0 *
        (2 * dt * tE a i k / (2 * ep i k * EPSILON0 + sg i k * dt)) ^ 2 / 2)) := by
  have hG := h.valid
  have h0 := EPSILON0_pos
  have hm := MAGN_CONST_pos
  have dpos : ∀ i k, Box 0 G.nr 0 G.nz i k → 0 < 2 * ep i k * EPSILON0 + sg i k * dt := by
    intro i k hb
    have a1 := h.eps i k hb
    have a2 := hsg i k hb
    have := h.e_pos
    have : 0 < ep i k := by linarith
    positivity
  -- the magnetic disturbance is applied before the step
  let w : Fields := fun a i k => match a with
    | .hr => tH .hr i k | .hphi => tH .hphi i k | .hz => tH .hz i k | _ => 0
  have ww : WallE G w := by constructor <;> intros <;> rfl
  have eW : eForm G dt ep w w = sumH G (fun a i k => MAGN_CONST * tH a i k ^ 2 / 2) := by
    rw [eForm_magnetic hG dt ep (fun i k => ⟨rfl, rfl, rfl⟩)]
    apply sumH_congr
    intro a i k hn
    cases a <;> simp only [HNode] at hn <;> rfl
  let y : Fields := fun a i k => 1 * x a i k + w a i k
  have wy : WallE G y := hw.lin ww 1
  have ty := h.triangle hw ww
  -- one step of the program without currents
  let F : Fields := withMed ep sg y
  let L : Fields := fStep G dt (fun _ _ => 0) (fun _ _ => 0) (fun _ _ => 0) F
  have wF : WallE G F := withMed_wall wy ep sg
  have wL : WallE G L := wF.fStep hG dt _ _ _
  have bal := energy_balance hG (dt := dt) F (fun _ _ => 0) (fun _ _ => 0) (fun _ _ => 0) wF
    (fun i k hb => (dpos i k hb).ne')
  have eL : eForm G dt ep L L ≤ eForm G dt ep y y := by
    have e1 : energy G L (hStep G dt L) = eForm G dt ep L L := eForm_energy hG dt L
    have e2 : energy G F (hStep G dt F) = eForm G dt ep y y := by
      rw [eForm_energy hG dt F]; exact eForm_withMed hG dt ep sg y
    have : 0 ≤ sumE G (fun a i k => dt * currentOf L a i k * ((F a i k + L a i k) / 2)
        + dt * F .sig i k * ((F a i k + L a i k) / 2) ^ 2) := by
      apply sumE_nonneg hG
      intro a i k hn
      have j0 : currentOf L a i k = 0 := by cases a <;> rfl
      rw [j0]
      have := hsg i k hn.box
      have : 0 ≤ dt * F .sig i k * ((F a i k + L a i k) / 2) ^ 2 := by
        have e3 : F .sig i k = sg i k := rfl
        rw [e3]; positivity
      linarith
    have bal' : energy G L (hStep G dt L) = energy G F (hStep G dt F) - _ := bal
    rw [e1, e2] at bal'
    linarith
  -- the electric disturbance is applied after the step
  let d : Fields := fun a i k => (-1) * L a i k + x' a i k
  have wd : WallE G d := wL.lin hw' (-1)
  have td := h.triangle wL wd
  have ed : (fun a i k => 1 * L a i k + d a i k) = x' := by funext a i k; simp only [d]; ring
  rw [ed] at td
  have lH : ∀ a i k, HNode G a i k → L a i k = x' a i k := by
    intro a i k hn
    have e1 : L a i k = hStep G dt F a i k := by cases a <;> simp only [HNode] at hn <;> rfl
    rw [e1, hStep_curl F hn, hH a i k hn]
    have e2 : F a i k = y a i k := withMed_H hn ep sg y
    have e3 : curlE G F a i k = curlE G x a i k := by
      have : curlE G F = curlE G y := withMed_curlE G ep sg y
      rw [this, curlE_lin]
      have : curlE G w a i k = 0 := by cases a <;> simp [curlE, w]
      rw [this]; ring
    have e4 : w a i k = tH a i k := by cases a <;> simp only [HNode] at hn <;> rfl
    rw [e2, e3]
    simp only [y, e4]; ring
  have dH : ∀ a i k, HNode G a i k → d a i k = 0 := by
    intro a i k hn; simp only [d, lH a i k hn]; ring
  have dE : ∀ a i k, ENode G a i k →
      d a i k = 2 * dt * tE a i k / (2 * ep i k * EPSILON0 + sg i k * dt) := by
    intro a i k hn
    have hp := dpos i k hn.box
    rw [eq_div_iff hp.ne']
    have h1 := eStep_implicit (G := G) (dt := dt) (withJ (hStep G dt F) (fun _ _ => 0) (fun _ _ => 0) (fun _ _ => 0)) hn hp.ne'
    have e1 : eStep G dt (withJ (hStep G dt F) (fun _ _ => 0) (fun _ _ => 0) (fun _ _ => 0)) a i k = L a i k := rfl
    have e2 : (withJ (hStep G dt F) (fun _ _ => 0) (fun _ _ => 0) (fun _ _ => 0)) a i k = x a i k := by
      cases a <;> simp only [ENode] at hn
      · change 1 * x .er i k + 0 = _; ring
      · change 1 * x .ephi i k + 0 = _; ring
      · change 1 * x .ez i k + 0 = _; ring
    have e3 : currentOf (withJ (hStep G dt F) (fun _ _ => 0) (fun _ _ => 0) (fun _ _ => 0)) a i k = 0 := by
      cases a <;> rfl
    have e4 : curlH G (withJ (hStep G dt F) (fun _ _ => 0) (fun _ _ => 0) (fun _ _ => 0)) a i k = curlH G x' a i k := by
      apply curlH_congr _ hn
      intro a i k hn
      rw [← lH a i k hn]
      cases a <;> simp only [HNode] at hn <;> rfl
    have e5 : (withJ (hStep G dt F) (fun _ _ => 0) (fun _ _ => 0) (fun _ _ => 0)) .eps i k = ep i k := rfl
    have e6 : (withJ (hStep G dt F) (fun _ _ => 0) (fun _ _ => 0) (fun _ _ => 0)) .sig i k = sg i k := rfl
    rw [e1, e2, e3, e4, e5, e6] at h1
    have h2 := hE a i k hn
    simp only [d]
    linear_combination h2 - h1
  have eD : eForm G dt ep d d = sumE G (fun a i k => ep i k * EPSILON0 *
        (2 * dt * tE a i k / (2 * ep i k * EPSILON0 + sg i k * dt)) ^ 2 / 2) := by
    rw [eForm_electric hG dt ep dH]
    exact sumE_congr hG fun a i k hn => by rw [dE a i k hn]
  rw [eD] at td
  rw [eW] at ty
  have := Real.sqrt_le_sqrt eL
  have ty' : Real.sqrt (eForm G dt ep y y) ≤ _ := ty
  linarith

end Verif
