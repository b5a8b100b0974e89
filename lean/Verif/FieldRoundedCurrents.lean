import Verif.FieldRoundedIeee

/-!
# Rounded sums of the deposits (C102)

`j += value` (src/current.cpp `inc_j_r`, `inc_j_phi`, `inc_j_z`) in binary64, in any order of the calls.
-/

namespace Verif

/-! ## The program -/

/-- `Current::inc_j_r`, `inc_j_phi`, `inc_j_z`, src/current.cpp:107-123: the element named by the call is increased -/
noncomputable def incF (j : Fields) (c : JCall) : Fields :=
  fun a i k => if c.arr = a ∧ c.i = i ∧ c.k = k then fl (j a i k + c.v) else j a i k

/-- The calls of a step one after the other, after `reset_j`, src/current.cpp:125-140 -/
noncomputable def depositF (l : List JCall) : Fields := l.foldl incF (fun _ _ _ => 0)

/-! ## Specification -/

/-- What the calls bring to an element, without regard to sign -/
noncomputable def callSize (l : List JCall) (a : Arr) (i k : ℤ) : ℝ :=
  (l.map (fun c => if c.arr = a ∧ c.i = i ∧ c.k = k then |c.v| else 0)).sum

/-! ## Proofs -/

theorem callSize_nonneg (l : List JCall) (a : Arr) (i k : ℤ) : 0 ≤ callSize l a i k := by
  refine List.sum_nonneg ?_
  intro x hx
  obtain ⟨c, -, rfl⟩ := List.mem_map.1 hx
  split_ifs
  · exact abs_nonneg _
  · exact le_rfl

theorem callSum_abs (l : List JCall) (a : Arr) (i k : ℤ) : |callSum l a i k| ≤ callSize l a i k := by
  induction l with
  | nil => simp [callSize]
  | cons c l ih =>
    rw [callSum_cons]
    have e : callSize (c :: l) a i k = (if c.arr = a ∧ c.i = i ∧ c.k = k then |c.v| else 0) + callSize l a i k := by simp [callSize]
    rw [e]
    refine (abs_add_le _ _).trans (add_le_add ?_ ih)
    split_ifs
    · exact le_rfl
    · simp

theorem callSize_perm {l l' : List JCall} (h : l.Perm l') (a : Arr) (i k : ℤ) :
    callSize l a i k = callSize l' a i k := (h.map _).sum_eq

theorem depositF_err (l : List JCall) (hl : 2 * l.length * UU ≤ 1) (a : Arr) (i k : ℤ) :
    |depositF l a i k - callSum l a i k| ≤ 2 * l.length * UU * callSize l a i k + 2 * l.length * TT := by
  induction l using List.reverseRecOn with
  | nil => simp [depositF, callSize]
  | append_singleton l c ih =>
    have u0 := UU_pos
    have t0 := TT_pos
    have hl' : 2 * ((l.length : ℝ) + 1) * UU ≤ 1 := by
      rw [List.length_append, List.length_singleton, Nat.cast_add, Nat.cast_one] at hl
      exact hl
    have h := ih (by linarith)
    have n0 : (0:ℝ) ≤ l.length := Nat.cast_nonneg _
    have e1 : depositF (l ++ [c]) = incF (depositF l) c := by simp [depositF]
    have e2 : callSum (l ++ [c]) a i k = callSum l a i k + (if c.arr = a ∧ c.i = i ∧ c.k = k then c.v else 0) := by simp [callSum]
    have e3 : callSize (l ++ [c]) a i k = callSize l a i k + (if c.arr = a ∧ c.i = i ∧ c.k = k then |c.v| else 0) := by simp [callSize]
    have e4 : ((l ++ [c]).length : ℝ) = l.length + 1 := by simp
    rw [e1, e2, e3, e4]
    have s0 := callSize_nonneg l a i k
    have sa := callSum_abs l a i k
    obtain ⟨n, hn⟩ : ∃ n : ℝ, n = l.length := ⟨_, rfl⟩
    obtain ⟨s, hs⟩ : ∃ s, s = callSize l a i k := ⟨_, rfl⟩
    obtain ⟨x, hx⟩ : ∃ x, x = callSum l a i k := ⟨_, rfl⟩
    obtain ⟨y, hy⟩ : ∃ y, y = depositF l a i k := ⟨_, rfl⟩
    rw [← hn] at h hl' n0 ⊢
    rw [← hs] at h s0 sa ⊢
    rw [← hx] at h sa ⊢
    rw [← hy] at h
    unfold incF
    rw [← hy]
    by_cases hc : c.arr = a ∧ c.i = i ∧ c.k = k
    · rw [if_pos hc, if_pos hc, if_pos hc]
      have f : |fl (y + c.v) - (y + c.v)| ≤ UU * |y + c.v| + TT := fl_near _
      have v0 := abs_nonneg c.v
      have b1 : |y + c.v| ≤ (2 * n * UU * s + 2 * n * TT) + (s + |c.v|) := by
        have : y + c.v = (y - x) + (x + c.v) := by ring
        rw [this]
        refine (abs_add_le _ _).trans (add_le_add h ((abs_add_le _ _).trans ?_))
        linarith
      have b2 : |fl (y + c.v) - (x + c.v)| ≤ |fl (y + c.v) - (y + c.v)| + |y - x| := by
        have : fl (y + c.v) - (x + c.v) = (fl (y + c.v) - (y + c.v)) + (y - x) := by ring
        rw [this]
        exact abs_add_le _ _
      have b3 := mul_le_mul_of_nonneg_left b1 u0.le
      have p1 : UU * (2 * n * UU * s) ≤ UU * (1 * s) :=
        mul_le_mul_of_nonneg_left (mul_le_mul_of_nonneg_right (by nlinarith) s0) u0.le
      have p2 : UU * (2 * n * TT) ≤ TT := by
        have : 2 * n * UU ≤ 1 := by nlinarith
        have := mul_le_mul_of_nonneg_right this t0.le
        linarith
      have p3 : 0 ≤ UU * |c.v| := mul_nonneg u0.le v0
      have p4 : 0 ≤ n * UU * |c.v| := mul_nonneg (mul_nonneg n0 u0.le) v0
      nlinarith only [b2, f, b3, p1, p2, p3, p4, h]
    · rw [if_neg hc, if_neg hc, if_neg hc, add_zero, add_zero]
      refine h.trans ?_
      have : 0 ≤ UU * s := mul_nonneg u0.le s0
      nlinarith only [this, t0]

/-- energies of currents that are bounded by those of `s` and a small number -/
theorem currentEnergy_le {G : Geom} (hG : G.Valid) {dt : ℝ} {ep sg : Grid} (hM : Moderate G dt ep sg)
    {d s : Arr → ℤ → ℤ → ℝ} {p : ℝ}
    (h : ∀ a i k, ENode G a i k → |d a i k| ≤ p * s a i k + 2 ^ 60 * TT) :
    currentEnergy G dt ep sg d ≤ 2 * p ^ 2 * currentEnergy G dt ep sg s + (ETA / 4) ^ 2 * unitEnergy G ep := by
  have h0 := EPSILON0_pos
  have hm := MAGN_CONST_pos
  have t0 := TT_pos
  have small : 2 ^ 160 * (2 ^ 60 * TT) ≤ ETA / 8 := by
    have e : (2:ℝ) ^ 160 * (2 ^ 60 * TT) = 1 / 2 ^ 855 := by
      unfold TT
      rw [← mul_assoc, ← pow_add, mul_one_div, div_eq_div_iff (by positivity) (by positivity), one_mul, ← pow_add]
    have e' : ETA / 8 = 1 / 2 ^ 503 := by
      unfold ETA
      rw [div_div, show (8:ℝ) = 2 ^ 3 by norm_num, ← pow_add]
    rw [e, e']
    exact one_div_le_one_div_of_le (by positivity) (pow_le_pow_right₀ (by norm_num) (by norm_num))
  have A : currentEnergy G dt ep sg d ≤
      sumE G (fun a i k => 2 * p ^ 2 * (ep i k * EPSILON0 * (koefH (ep i k) (sg i k) dt * s a i k) ^ 2 / 2) +
        ((ETA / 4) ^ 2 * (ep i k * EPSILON0 * (1:ℝ) ^ 2 / 2) + 0 * 0)) := by
    unfold currentEnergy
    apply sumE_le hG
    intro a i k hn
    have hb := hn.box
    obtain ⟨e1, -⟩ := hM.eps i k hb
    have e0 : 0 < ep i k := by
      have : (0:ℝ) < 1 / 2 ^ 60 := by positivity
      linarith
    obtain ⟨-, kh, kb⟩ := koefF_apx hM (x := fun b => match b with | .eps => ep | .sig => sg | _ => fun _ _ => 0) hb rfl rfl
    obtain ⟨κ, hκ⟩ : ∃ κ, κ = koefH (ep i k) (sg i k) dt := ⟨_, rfl⟩
    have k0 : 0 ≤ koefH (ep i k) (sg i k) dt := (abs_nonneg _).trans kh.size
    have hd := h a i k hn
    rw [← hκ] at kb k0 ⊢
    have b1 : |κ * d a i k| ≤ |p * (κ * s a i k)| + ETA / 8 := by
      rw [abs_mul, abs_of_nonneg k0]
      have q1 := mul_le_mul_of_nonneg_left hd k0
      have q2 := mul_le_mul_of_nonneg_right kb (mul_nonneg (by positivity : (0:ℝ) ≤ 2 ^ 60) t0.le)
      have q3 := le_abs_self (p * (κ * s a i k))
      nlinarith only [q1, q2, q3, small]
    have b2 : (κ * d a i k) ^ 2 ≤ 2 * p ^ 2 * (κ * s a i k) ^ 2 + (ETA / 4) ^ 2 := by
      have q : |κ * d a i k| ^ 2 ≤ (|p * (κ * s a i k)| + ETA / 8) ^ 2 := pow_le_pow_left₀ (abs_nonneg _) b1 2
      rw [sq_abs] at q
      have q4 : |p * (κ * s a i k)| ^ 2 = p ^ 2 * (κ * s a i k) ^ 2 := by rw [sq_abs, mul_pow]
      obtain ⟨w, hw⟩ : ∃ w, w = |p * (κ * s a i k)| := ⟨_, rfl⟩
      rw [← hw] at q q4
      nlinarith only [q, q4, sq_nonneg (w - ETA / 8), sq_nonneg ETA]
    have c0 : 0 ≤ ep i k * EPSILON0 / 2 := by positivity
    have := mul_le_mul_of_nonneg_left b2 c0
    linarith only [this]
  rw [sumE_add3 G (2 * p ^ 2) ((ETA / 4) ^ 2) 0 _ _ (fun _ _ _ => 0)] at A
  have B : sumE G (fun a i k => ep i k * EPSILON0 * (1:ℝ) ^ 2 / 2) ≤ unitEnergy G ep := by
    unfold unitEnergy storedEnergy
    have : 0 ≤ sumH G (fun a i k => MAGN_CONST * (1:ℝ) ^ 2 / 2) := sumH_nonneg hG (fun a i k _ => by positivity)
    linarith
  have C := mul_le_mul_of_nonneg_left B (sq_nonneg (ETA / 4))
  unfold currentEnergy at A ⊢
  linarith only [A, C]

/-- **C102.**  The program in IEEE arithmetic, with the currents summed up in IEEE arithmetic in any order: `order n` is the order in
which the calls of the step `n` are served.  At most `L` calls are made in a step. -/
theorem C102_deposits {G : Geom} (hG : G.Valid) {dt e θ S : ℝ} (he : 0 < e) (hθ : 0 ≤ θ) (hθ1 : θ < 1)
    (hl : StepLimit G dt e θ) {calls order : ℕ → List JCall} {L N : ℕ} (hN : (N : ℝ) ≤ 2 ^ 40 * √(1 - θ)) (hL : L ≤ 2 ^ 50)
    {Y : ℕ → Mem Loc} (hm : Initialised G (Y 0)) (hw : WallE G (fieldsOf (Y 0)))
    (hM : Moderate G dt (fieldsOf (Y 0) .eps) (fieldsOf (Y 0) .sig))
    (hmed : ∀ i k, Box 0 G.nr 0 G.nz i k → e ≤ fieldsOf (Y 0) .eps i k)
    (hc : ∀ n, n < N → ∀ c ∈ calls n, c.Ok G) (hcL : ∀ n, n < N → (calls n).length ≤ L)
    (ho : ∀ n, n < N → (order n).Perm (calls n))
    (hY : ∀ n, n < N → FieldStep G dt (calls n) (Y n) (Y (n + 1)))
    (hS0 : 0 ≤ S) (hS : ∀ n, n < N → storedEnergy G (fieldsOf (Y 0) .eps) (fieldsOf (Y n)) ≤ S ^ 2 ∧
      currentEnergy G dt (fieldsOf (Y 0) .eps) (fieldsOf (Y 0) .sig) (fun a => callSize (calls n) (jOf a)) ≤ S ^ 2) :
    √(storedEnergy G (fieldsOf (Y 0) .eps)
        (fun a i k => fieldsF G dt (fun n => depositF (order n)) (fieldsOf (Y 0)) N a i k - fieldsOf (Y N) a i k)) ≤
      3000 * N / √(1 - θ) * ((L + 1) * EPS * S + ETA * √(unitEnergy G (fieldsOf (Y 0) .eps))) := by
  obtain ⟨ep, hep⟩ : ∃ ep : Grid, ep = fieldsOf (Y 0) .eps := ⟨_, rfl⟩
  obtain ⟨sg, hsg⟩ : ∃ sg : Grid, sg = fieldsOf (Y 0) .sig := ⟨_, rfl⟩
  have pθ : 0 < 1 - θ := by linarith
  have r0 : 0 < √(1 - θ) := Real.sqrt_pos.2 pθ
  have E0 := EPS_pos
  have T0 := ETA_pos
  have t0 := TT_pos
  have u0 := UU_pos
  have L0 : (0:ℝ) ≤ L := Nat.cast_nonneg _
  have L1 : (L:ℝ) ≤ 2 ^ 50 := by exact_mod_cast hL
  have eU : UU = EPS / 32 := by unfold UU EPS; norm_num
  have E1 : 2 ^ 48 * EPS = 1 := by unfold EPS; norm_num
  obtain ⟨U, hU⟩ : ∃ U, U = √(unitEnergy G ep) := ⟨_, rfl⟩
  have U0 : 0 ≤ U := by rw [hU]; exact Real.sqrt_nonneg _
  have U2 : unitEnergy G ep = U ^ 2 := by
    rw [hU, Real.sq_sqrt]
    have := EPSILON0_pos
    have := MAGN_CONST_pos
    have hM' := hM
    rw [← hep] at hM'
    have a : 0 ≤ sumE G (fun a i k => ep i k * EPSILON0 * (1:ℝ) ^ 2 / 2) := by
      refine sumE_nonneg hG (fun a i k hn => ?_)
      have := (hM'.eps i k hn.box).1
      have : (0:ℝ) < 1 / 2 ^ 60 := by positivity
      have : 0 < ep i k := by linarith
      positivity
    have b : 0 ≤ sumH G (fun a i k => MAGN_CONST * (1:ℝ) ^ 2 / 2) := sumH_nonneg hG (fun a i k _ => by positivity)
    exact add_nonneg a b
  -- errors of the sums
  have err : ∀ n, n < N → ∀ a i k, |depositF (order n) a i k - callSum (calls n) a i k| ≤
      L * EPS / 16 * callSize (calls n) a i k + 2 ^ 60 * TT := by
    intro n hn a i k
    have p := ho n hn
    have len : ((order n).length : ℝ) ≤ L := by
      rw [p.length_eq]
      exact_mod_cast hcL n hn
    have h := depositF_err (order n) (by rw [eU]; nlinarith only [len, L1, E1, E0]) a i k
    rw [callSum_perm p, callSize_perm p] at h
    refine h.trans (add_le_add ?_ ?_)
    · refine mul_le_mul_of_nonneg_right ?_ (callSize_nonneg _ _ _ _)
      rw [eU]
      nlinarith only [len, E0]
    · refine mul_le_mul_of_nonneg_right ?_ t0.le
      have : (2:ℝ) * 2 ^ 50 ≤ 2 ^ 60 := by norm_num
      linarith
  have cur : ∀ n a i k, ENode G a i k → currentOf (depositF (order n)) a i k = depositF (order n) (jOf a) i k := by
    intro n a i k hn
    cases a <;> simp [ENode] at hn <;> rfl
  have key : ∀ n, n < N → currentEnergy G dt ep sg (currentOf (depositF (order n))) ≤ (2 * S + ETA * U) ^ 2 ∧
      currentEnergy G dt ep sg (fun a i k => callSum (calls n) (jOf a) i k - currentOf (depositF (order n)) a i k) ≤
        (L * EPS * S + ETA * U) ^ 2 := by
    intro n hn
    have hs := (hS n hn).2
    rw [← hep, ← hsg] at hs
    rw [← hep, ← hsg] at hM
    have x0 : 0 ≤ S * (ETA * U) := mul_nonneg hS0 (mul_nonneg T0.le U0)
    have x1 : 0 ≤ (ETA * U) ^ 2 := sq_nonneg _
    refine ⟨?_, ?_⟩
    · have q := currentEnergy_le hG hM (d := currentOf (depositF (order n))) (s := fun a => callSize (calls n) (jOf a)) (p := 5 / 4) (by
        intro a i k hnode
        rw [cur n a i k hnode]
        have h1 := err n hn (jOf a) i k
        have h2 := callSum_abs (calls n) (jOf a) i k
        have h3 := abs_add_le (depositF (order n) (jOf a) i k - callSum (calls n) (jOf a) i k) (callSum (calls n) (jOf a) i k)
        rw [sub_add_cancel] at h3
        have h4 : L * EPS / 16 * callSize (calls n) (jOf a) i k ≤ 1 / 4 * callSize (calls n) (jOf a) i k :=
          mul_le_mul_of_nonneg_right (by nlinarith only [L1, E1, E0]) (callSize_nonneg _ _ _ _)
        linarith only [h1, h2, h3, h4])
      rw [U2] at q
      nlinarith only [q, hs, x0, x1]
    · have q := currentEnergy_le hG hM (d := fun a i k => callSum (calls n) (jOf a) i k - currentOf (depositF (order n)) a i k)
        (s := fun a => callSize (calls n) (jOf a)) (p := L * EPS / 16) (by
        intro a i k hnode
        rw [cur n a i k hnode, abs_sub_comm]
        exact err n hn (jOf a) i k)
      rw [U2] at q
      have w0 : 0 ≤ (L * EPS) ^ 2 := sq_nonneg _
      have w1 := mul_le_mul_of_nonneg_left hs w0
      have w2 : 0 ≤ L * EPS * (S * (ETA * U)) := mul_nonneg (mul_nonneg L0 E0.le) x0
      have w3 : 0 ≤ (L * EPS) ^ 2 * S ^ 2 := mul_nonneg w0 (sq_nonneg _)
      nlinarith only [q, w1, w2, w3, x1]
  have main := C102_ieee hG (S := 2 * S + ETA * U) (δ := L * EPS * S + ETA * U) he hθ hθ1 hl hN hm hw hM hmed hc hY
    (j := fun n => depositF (order n)) (add_nonneg (by linarith) (mul_nonneg T0.le U0)) (by
      intro n hn
      refine ⟨?_, ?_⟩
      · refine (hS n hn).1.trans (pow_le_pow_left₀ hS0 ?_ 2)
        have := mul_nonneg T0.le U0
        linarith
      · rw [← hep, ← hsg]; exact (key n hn).1)
    (add_nonneg (mul_nonneg (mul_nonneg L0 E0.le) hS0) (mul_nonneg T0.le U0)) (by
      intro n hn
      rw [← hep, ← hsg]; exact (key n hn).2)
  refine main.trans ?_
  rw [← hep, ← hU]
  have fac : 0 ≤ 1000 * (N:ℝ) / √(1 - θ) := by positivity
  have e : 3000 * (N:ℝ) / √(1 - θ) * ((L + 1) * EPS * S + ETA * U) =
      1000 * (N:ℝ) / √(1 - θ) * (3 * ((L + 1) * EPS * S + ETA * U)) := by ring
  rw [e]
  apply mul_le_mul_of_nonneg_left _ fac
  have y0 : 0 ≤ ETA * U := mul_nonneg T0.le U0
  have y1 : EPS * (ETA * U) ≤ 1 * (ETA * U) := mul_le_mul_of_nonneg_right (by nlinarith only [E1, E0]) y0
  have y2 : 0 ≤ EPS * S := mul_nonneg E0.le hS0
  have y3 : 0 ≤ L * (EPS * S) := mul_nonneg L0 y2
  nlinarith only [y0, y1, y2, y3]

/-! ## Cases that meet the hypotheses -/

/-- the program with exact arithmetic has a run -/
theorem exact_run {G : Geom} (hG : G.Valid) (dt : ℝ) {calls : ℕ → List JCall} (hc : ∀ n, ∀ c ∈ calls n, c.Ok G) {m : Mem Loc}
    (hm : Initialised G m) : ∃ Y : ℕ → Mem Loc, Y 0 = m ∧ ∀ n, FieldStep G dt (calls n) (Y n) (Y (n + 1)) := by
  have step : ∀ (n : ℕ) (m : {m : Mem Loc // ∃ F, Rep G F m}), ∃ m' : {m : Mem Loc // ∃ F, Rep G F m},
      FieldStep G dt (calls n) m.1 m'.1 := by
    rintro n ⟨m, F, hF⟩
    obtain ⟨-, m', h1, -, h2, -⟩ := fieldStep_spec hG dt (hc n) hF
    exact ⟨⟨m', _, h2⟩, h1⟩
  choose f hf using step
  refine ⟨fun n => (Nat.rec (motive := fun _ => {m : Mem Loc // ∃ F, Rep G F m}) ⟨m, _, hm.rep⟩ (fun n y => f n y) n).1, rfl, ?_⟩
  intro n
  exact hf n _

theorem coarse_limit : StepLimit coarseGeom (coarseDt / 2) 1 (3 / 5) := by
  unfold StepLimit
  rw [div_pow, coarseDt_sq]
  have := EPSILON0_pos; have := MAGN_CONST_pos
  have h : 0 < EPSILON0 * MAGN_CONST := by positivity
  norm_num [coarseGeom]
  nlinarith

theorem coarse_moderate : Moderate coarseGeom (coarseDt / 2) (fieldsOf coarseMem .eps) (fieldsOf coarseMem .sig) := by
  have d := coarseDt_pos
  have s := coarseDt_sq
  have v : EPSILON0 * MAGN_CONST = 8.85E-12 * 1.26E-6 := by norm_num [EPSILON0, MAGN_CONST]
  have s' : coarseDt ^ 2 = 370000 ^ 2 * (27 / 28 * (8.85E-12 * 1.26E-6)) := by rw [s, ← v]; ring
  refine ⟨?_, ?_, ⟨?_, ?_⟩, ?_, ?_⟩
  · norm_num [coarseGeom]
  · norm_num [coarseGeom]
  · have : (1:ℝ) / 2 ^ 20 ≤ coarseDt := by
      apply le_of_pow_le_pow_left₀ two_ne_zero d.le
      rw [s']; norm_num
    norm_num at this ⊢
    linarith
  · have : coarseDt ≤ 1 := by
      apply le_of_pow_le_pow_left₀ two_ne_zero one_pos.le
      rw [s']; norm_num
    norm_num
    linarith
  · intro i k _
    have : fieldsOf coarseMem .eps i k = 1 := rfl
    rw [this]; norm_num
  · intro i k _
    have : fieldsOf coarseMem .sig i k = 0 := rfl
    rw [this]; norm_num

/-- C102: a million steps of the fields of `coarseMem`, at half the step the checks accept, with two deposits in every step that
are served in the other order. -/
example : ∃ (Y : ℕ → Mem Loc) (S : ℝ), Y 0 = coarseMem ∧
    (∀ n, FieldStep coarseGeom (coarseDt / 2) [⟨.jphi, 1, 1, 1 / 3⟩, ⟨.jphi, 1, 1, -1 / 7⟩] (Y n) (Y (n + 1))) ∧
    √(storedEnergy coarseGeom (fieldsOf (Y 0) .eps) (fun a i k => fieldsF coarseGeom (coarseDt / 2)
        (fun _ => depositF [⟨.jphi, 1, 1, -1 / 7⟩, ⟨.jphi, 1, 1, 1 / 3⟩]) (fieldsOf (Y 0)) 1000000 a i k - fieldsOf (Y 1000000) a i k)) ≤
      3000 * (1000000 : ℕ) / √(1 - 3 / 5) * (((2 : ℕ) + 1) * EPS * S + ETA * √(unitEnergy coarseGeom (fieldsOf (Y 0) .eps))) := by
  obtain ⟨Y, h0, hY⟩ := exact_run coarseGeom_valid (coarseDt / 2)
    (calls := fun _ => [⟨.jphi, 1, 1, 1 / 3⟩, ⟨.jphi, 1, 1, -1 / 7⟩]) (by
      intro n c hc
      simp only [List.mem_cons, List.not_mem_nil, or_false] at hc
      rcases hc with rfl | rfl <;> norm_num [JCall.Ok, coarseGeom]) coarseMem_initialised
  obtain ⟨S, hS0, hS⟩ : ∃ S : ℝ, 0 ≤ S ∧ ∀ n, n < 1000000 → storedEnergy coarseGeom (fieldsOf (Y 0) .eps) (fieldsOf (Y n)) ≤ S ^ 2 ∧
      currentEnergy coarseGeom (coarseDt / 2) (fieldsOf (Y 0) .eps) (fieldsOf (Y 0) .sig)
        (fun a => callSize [⟨.jphi, 1, 1, 1 / 3⟩, ⟨.jphi, 1, 1, -1 / 7⟩] (jOf a)) ≤ S ^ 2 := by
    obtain ⟨c, hc⟩ : ∃ c, c = currentEnergy coarseGeom (coarseDt / 2) (fieldsOf (Y 0) .eps) (fieldsOf (Y 0) .sig)
        (fun a => callSize [⟨.jphi, 1, 1, 1 / 3⟩, ⟨.jphi, 1, 1, -1 / 7⟩] (jOf a)) := ⟨_, rfl⟩
    rw [← hc]
    generalize storedEnergy coarseGeom (fieldsOf (Y 0) .eps) = g
    obtain ⟨S, h1⟩ : ∃ S : ℝ, ∀ n, n < 1000000 → g (fieldsOf (Y n)) ≤ S := by
      obtain ⟨S, hS⟩ := (Finset.finite_toSet (Finset.range 1000000)).image (fun n => g (fieldsOf (Y n))) |>.bddAbove
      exact ⟨S, fun n hn => hS ⟨n, by simpa using hn, rfl⟩⟩
    refine ⟨1 + |S| + |c|, by positivity, fun n hn => ⟨(h1 n hn).trans ?_, ?_⟩⟩
    · nlinarith only [le_abs_self S, abs_nonneg S, abs_nonneg c]
    · nlinarith only [le_abs_self c, abs_nonneg S, abs_nonneg c]
  refine ⟨Y, S, h0, hY, ?_⟩
  have hr : (1:ℝ) / 2 ≤ √(1 - 3 / 5) := by
    apply Real.le_sqrt_of_sq_le
    norm_num
  refine C102_deposits coarseGeom_valid one_pos (by norm_num) (by norm_num) coarse_limit
    (calls := fun _ => [⟨.jphi, 1, 1, 1 / 3⟩, ⟨.jphi, 1, 1, -1 / 7⟩])
    (order := fun _ => [⟨.jphi, 1, 1, -1 / 7⟩, ⟨.jphi, 1, 1, 1 / 3⟩]) ?_ (by norm_num) ?_ ?_ ?_ ?_ ?_ (fun n _ => le_rfl)
    (fun n _ => List.Perm.swap _ _ _) (fun n _ => hY n) hS0 hS
  · push_cast
    have := mul_le_mul_of_nonneg_left hr (by norm_num : (0:ℝ) ≤ 2 ^ 40)
    refine le_trans ?_ this
    norm_num
  · rw [h0]; exact coarseMem_initialised
  · rw [h0]; exact coarseMem_wall
  · rw [h0]; exact coarse_moderate
  · rw [h0]; exact fun _ _ _ => le_rfl
  · intro n _ c hc
    simp only [List.mem_cons, List.not_mem_nil, or_false] at hc
    rcases hc with rfl | rfl <;> norm_num [JCall.Ok, coarseGeom]

/-- C102: a million steps of the fields of `coarseMem` without currents; the rounded steps in IEEE arithmetic meet the hypotheses of
`C102_free`, and so of `C102_growth`. -/
example : ∃ Y : ℕ → Mem Loc, Y 0 = coarseMem ∧ (∀ n, FieldStep coarseGeom (coarseDt / 2) [] (Y n) (Y (n + 1))) ∧
    (∀ n, FieldStepR coarseGeom (coarseDt / 2) (fun _ _ _ => 0)
      (fieldsF coarseGeom (coarseDt / 2) (fun _ _ _ _ => 0) (fieldsOf (Y 0)) n)
      (fieldsF coarseGeom (coarseDt / 2) (fun _ _ _ _ => 0) (fieldsOf (Y 0)) (n + 1))) ∧
    √(storedEnergy coarseGeom (fieldsOf (Y 0) .eps) (fun a i k => fieldsF coarseGeom (coarseDt / 2)
        (fun _ _ _ _ => 0) (fieldsOf (Y 0)) 1000000 a i k - fieldsOf (Y 1000000) a i k)) ≤
      3000 * (1000000 : ℕ) / (1 - 3 / 5) * (EPS * √(storedEnergy coarseGeom (fieldsOf (Y 0) .eps) (fieldsOf (Y 0))) +
        ETA * √(unitEnergy coarseGeom (fieldsOf (Y 0) .eps))) := by
  obtain ⟨Y, h0, hY⟩ := exact_run coarseGeom_valid (coarseDt / 2) (calls := fun _ => []) (by simp) coarseMem_initialised
  have hr : (1:ℝ) / 2 ≤ √(1 - 3 / 5) := by
    apply Real.le_sqrt_of_sq_le
    norm_num
  refine ⟨Y, h0, hY, ?_, ?_⟩
  · intro n
    obtain ⟨h1, h2⟩ := fieldsF_medium coarseGeom (coarseDt / 2) (fun _ _ _ _ => 0) (fieldsOf (Y 0)) n
    refine fStepF_rounded coarseGeom_valid ?_
    rw [h1, h2, h0]
    exact coarse_moderate
  · refine C102_ieee_free coarseGeom_valid one_pos (by norm_num) (by norm_num) coarse_limit ?_ ?_ ?_ ?_ ?_ (fun n _ => hY n)
    · push_cast
      have := mul_le_mul_of_nonneg_left hr (by norm_num : (0:ℝ) ≤ 2 ^ 40)
      refine le_trans ?_ this
      norm_num
    · rw [h0]; exact coarseMem_initialised
    · rw [h0]; exact coarseMem_wall
    · rw [h0]; exact coarse_moderate
    · rw [h0]; exact fun _ _ _ => le_rfl

end Verif
