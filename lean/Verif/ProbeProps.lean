import Verif.Probe
import Verif.DepositProps
import Verif.BunchProps

/-!
# Properties of the run loop and of the probes (C31, C32, C48)
-/

namespace Verif

/-! ## C31: the time loop -/

/-- **C31** For a positive step the loop does exactly the least number of steps that reaches the end
time, and stops there; the time at its end is `t0 + n·dt`. -/
theorem C31_steps (t0 tend dt : ℝ) (hdt : 0 < dt) :
    ∃! r : ℕ × ℝ, TimeLoop tend dt t0 r.1 r.2 ∧
      tend ≤ t0 + r.1 * dt ∧ (∀ m : ℕ, m < r.1 → t0 + m * dt < tend) ∧ r.2 = t0 + r.1 * dt := by
  have det : ∀ t n t' m t'', TimeLoop tend dt t n t' → TimeLoop tend dt t m t'' → n = m := by
    intro t n t' m t'' h1
    induction h1 generalizing m t'' with
    | exit t h => intro h2; cases h2 with
      | exit => rfl
      | iter _ n _ h' => exact absurd h' h
    | iter t n t' h hr ih => intro h2; cases h2 with
      | exit _ h' => exact absurd h h'
      | iter _ m _ h' hr' => rw [ih _ _ hr']
  have ex : ∀ k : ℕ, ∀ t, tend ≤ t + k * dt → ∃ n : ℕ, TimeLoop tend dt t n (t + n * dt) ∧
      tend ≤ t + n * dt ∧ ∀ m : ℕ, m < n → t + m * dt < tend := by
    intro k
    induction k with
    | zero =>
      intro t h
      refine ⟨0, ?_, by simpa using h, fun m hm => by omega⟩
      simpa using TimeLoop.exit t (by simpa using h)
    | succ k ih =>
      intro t h
      by_cases ht : t < tend
      · obtain ⟨n, h1, h2, h3⟩ := ih (t + dt) (by push_cast at h; linarith)
        have e : t + dt + n * dt = t + ((n + 1 : ℕ) : ℝ) * dt := by push_cast; ring
        refine ⟨n + 1, ?_, by rw [← e]; exact h2, ?_⟩
        · rw [← e]; exact TimeLoop.iter t n _ ht h1
        · intro m hm
          cases m with
          | zero => simpa using ht
          | succ m =>
            have := h3 m (by omega)
            push_cast at this ⊢
            linarith
      · refine ⟨0, ?_, by simpa using ht, fun m hm => by omega⟩
        simpa using TimeLoop.exit t ht
  obtain ⟨k, hk⟩ := exists_nat_ge ((tend - t0) / dt)
  rw [div_le_iff₀ hdt] at hk
  obtain ⟨n, h1, h2, h3⟩ := ex k t0 (by linarith)
  refine ⟨(n, t0 + n * dt), ⟨h1, h2, h3, rfl⟩, ?_⟩
  rintro ⟨m, t'⟩ ⟨g1, -, -, g4⟩
  have := det _ _ _ _ _ g1 h1
  simp only at this g4
  rw [this] at g4
  rw [this, g4]

/-- Outside its domain: with a zero or negative step the loop, once entered, never ends. -/
theorem C31_nonpositive_step_diverges (t0 tend dt : ℝ) (hdt : dt ≤ 0) (h : t0 < tend) :
    ¬ ∃ n t', TimeLoop tend dt t0 n t' := by
  rintro ⟨n, t', h'⟩
  induction h' with
  | exit t h' => exact h' h
  | iter t n t' h' hr ih => exact ih (by linarith)

/-- Not vacuous: from 0 to 1 with step 2/5 takes three steps. -/
example : TimeLoop 1 (2 / 5) 0 3 (0 + 2 / 5 + 2 / 5 + 2 / 5) :=
  .iter _ _ _ (by norm_num) (.iter _ _ _ (by norm_num) (.iter _ _ _ (by norm_num)
    (.exit _ (by norm_num))))

/-! ## C32: probes -/

/-- The window of an array that a probe shows (specification, no bounds): rows and columns from the start
to before the end of a frame, row by row; a piece of one column; a piece of one row; one element. -/
def ProbeCfg.window (p : ProbeCfg) (A : Grid) : List ℝ :=
  match p.kind with
  | .frame => ((List.range (p.end_r - p.start_r).toNat).map fun (i : ℕ) =>
      (List.range (p.end_z - p.start_z).toNat).map fun (k : ℕ) => A (p.start_r + i) (p.start_z + k)).flatten
  | .col => (List.range (p.end_r - p.start_r).toNat).map fun (i : ℕ) => A (p.start_r + i) p.start_z
  | .row => (List.range (p.end_z - p.start_z).toNat).map fun (k : ℕ) => A p.start_r (p.start_z + k)
  | .dot => [A p.start_r p.start_z]

/-- All elements of the probe are in the array (specification). -/
def ProbeCfg.InBounds (p : ProbeCfg) (nr nz : ℕ) : Prop :=
  match p.kind with
  | .frame => p.start_r < p.end_r → p.start_z < p.end_z →
      (0 ≤ p.start_r ∧ p.end_r ≤ nr) ∧ (0 ≤ p.start_z ∧ p.end_z ≤ nz)
  | .col => p.start_r < p.end_r → (0 ≤ p.start_r ∧ p.end_r ≤ nr) ∧ (0 ≤ p.start_z ∧ p.start_z < nz)
  | .row => p.start_z < p.end_z → (0 ≤ p.start_r ∧ p.start_r < nr) ∧ (0 ≤ p.start_z ∧ p.end_z ≤ nz)
  | .dot => (0 ≤ p.start_r ∧ p.start_r < nr) ∧ (0 ≤ p.start_z ∧ p.start_z < nz)

theorem mem_intRange {a b i : ℤ} : i ∈ intRange a b ↔ a ≤ i ∧ i < b := by
  simp only [intRange, List.mem_map, List.mem_range]
  constructor
  · rintro ⟨n, h, rfl⟩; omega
  · rintro ⟨h1, h2⟩; exact ⟨(i - a).toNat, by omega, by omega⟩

theorem cells_window (p : ProbeCfg) (A : Grid) : (p.cells.map fun c => A c.1 c.2) = p.window A := by
  unfold ProbeCfg.cells ProbeCfg.window intRange
  cases p.kind <;>
    simp [List.flatMap, List.map_flatten, List.map_map, Function.comp_def]

theorem cells_inBounds (p : ProbeCfg) (nr nz : ℕ) :
    (∀ c ∈ p.cells, InGrid nr nz c.1 c.2) ↔ p.InBounds nr nz := by
  unfold ProbeCfg.cells ProbeCfg.InBounds InGrid
  cases p.kind
  · simp only [List.mem_flatMap, List.mem_map, mem_intRange]
    constructor
    · intro h h1 h2
      have e1 := h (p.start_r, p.start_z) ⟨_, ⟨le_rfl, h1⟩, _, ⟨le_rfl, h2⟩, rfl⟩
      have e2 := h (p.end_r - 1, p.end_z - 1) ⟨_, ⟨by omega, by omega⟩, _, ⟨by omega, by omega⟩, rfl⟩
      simp only at e1 e2
      omega
    · rintro h c ⟨i, ⟨h1, h2⟩, k, ⟨h3, h4⟩, rfl⟩
      have := h (by omega) (by omega)
      simp only
      omega
  · simp only [List.mem_map, mem_intRange]
    constructor
    · intro h h1
      have e1 := h (p.start_r, p.start_z) ⟨_, ⟨le_rfl, h1⟩, rfl⟩
      have e2 := h (p.end_r - 1, p.start_z) ⟨_, ⟨by omega, by omega⟩, rfl⟩
      simp only at e1 e2
      omega
    · rintro h c ⟨i, ⟨h1, h2⟩, rfl⟩
      have := h (by omega)
      simp only
      omega
  · simp only [List.mem_map, mem_intRange]
    constructor
    · intro h h1
      have e1 := h (p.start_r, p.start_z) ⟨_, ⟨le_rfl, h1⟩, rfl⟩
      have e2 := h (p.start_r, p.end_z - 1) ⟨_, ⟨by omega, by omega⟩, rfl⟩
      simp only at e1 e2
      omega
    · rintro h c ⟨i, ⟨h1, h2⟩, rfl⟩
      have := h (by omega)
      simp only
      omega
  · simp only [List.mem_singleton, forall_eq]
    omega

theorem readCells_some {nr nz : ℕ} {A : Grid} {cells : List (ℤ × ℤ)}
    (h : ∀ c ∈ cells, InGrid nr nz c.1 c.2) :
    readCells nr nz A cells = some (cells.map fun c => A c.1 c.2) := by
  unfold readCells
  induction cells with
  | nil => rfl
  | cons c cs ih =>
    rw [List.mapM_cons, if_pos (h c List.mem_cons_self), ih (fun c' hc' => h c' (List.mem_cons_of_mem _ hc'))]
    rfl

theorem readCells_none {nr nz : ℕ} {A : Grid} {cells : List (ℤ × ℤ)}
    (h : ∃ c ∈ cells, ¬ InGrid nr nz c.1 c.2) : readCells nr nz A cells = none := by
  unfold readCells
  induction cells with
  | nil => obtain ⟨c, hc, -⟩ := h; cases hc
  | cons c cs ih =>
    rw [List.mapM_cons]
    by_cases hb : InGrid nr nz c.1 c.2
    · rw [if_pos hb]
      obtain ⟨c', hc', hn⟩ := h
      rcases List.mem_cons.1 hc' with rfl | hc'
      · exact absurd hb hn
      · rw [ih ⟨c', hc', hn⟩]; rfl
    · rw [if_neg hb]; rfl

/-- The steps (from 0) at which a probe has to fire: those whose number, counted from time zero, is a
multiple of the schedule. -/
noncomputable def firingSteps (p : ProbeCfg) (t0 dt : ℝ) (N : ℕ) : List ℕ :=
  open Classical in (List.range N).filter fun j => p.schedule ∣ ⌊t0 / dt⌋ + j

/-- The records a probe has to write in `N` steps. -/
noncomputable def records (p : ProbeCfg) (t0 dt : ℝ) (A : ℕ → Grid) (N : ℕ) : List (List ℝ) :=
  (firingSteps p t0 dt N).map fun j => (p.window (A j)).map fmt6

/-- File `f` of a list of records split `c` to a file. -/
def fileOf {α} (c : ℕ) (recs : List (List α)) (f : ℕ) : Option (List α) :=
  if f * c < recs.length then some ((recs.drop (f * c)).take c).flatten else none

theorem fileOf_snoc {α} (c : ℕ) (hc : 0 < c) (recs : List (List α)) (r : List α) (f : ℕ) :
    fileOf c (recs ++ [r]) f = if f = recs.length / c then some ((fileOf c recs f).getD [] ++ r)
      else fileOf c recs f := by
  unfold fileOf
  have hlen : (recs ++ [r]).length = recs.length + 1 := by simp
  rw [hlen]
  have h1 := Nat.div_mul_le_self recs.length c
  have h2 := Nat.lt_div_mul_add hc (a := recs.length)
  by_cases hf : f = recs.length / c
  · subst hf
    rw [if_pos (by omega), if_pos rfl]
    have e1 : (recs ++ [r]).drop (recs.length / c * c) = recs.drop (recs.length / c * c) ++ [r] :=
      List.drop_append_of_le_length h1
    have e2 : ((recs.drop (recs.length / c * c) ++ [r]).take c) = recs.drop (recs.length / c * c) ++ [r] := by
      apply List.take_of_length_le; simp; omega
    have e3 : (recs.drop (recs.length / c * c)).take c = recs.drop (recs.length / c * c) := by
      apply List.take_of_length_le; simp; omega
    rw [e1, e2, e3]
    split_ifs with h
    · simp
    · have : recs.drop (recs.length / c * c) = [] := List.drop_eq_nil_of_le (by omega)
      simp [this]
  · rw [if_neg hf]
    rcases Nat.lt_or_ge f (recs.length / c) with hlt | hge
    · have h3 : (f + 1) * c ≤ recs.length / c * c := Nat.mul_le_mul_right c hlt
      have h4 : (f + 1) * c = f * c + c := by ring
      rw [if_pos (by omega), if_pos (by omega), List.drop_append_of_le_length (by omega),
        List.take_append_of_le_length (by simp; omega)]
    · have h3 : (recs.length / c + 1) * c ≤ f * c := Nat.mul_le_mul_right c (by omega)
      have h4 : (recs.length / c + 1) * c = recs.length / c * c + c := by ring
      rw [if_neg (by omega), if_neg (by omega)]

/-- **C32** For every number of steps: the probe has fired exactly at the steps whose index is a multiple
of its schedule, record `n` is in file `n / frames_per_file`, in order, and no record is lost or
overwritten: file `f` is precisely the concatenation of records `f·fpf, …, (f+1)·fpf − 1`. -/
theorem C32_probe_files (nr nz fpf : ℕ) (hfpf : 0 < fpf) (p : ProbeCfg) (hs : 0 < p.schedule)
    (hin : p.InBounds nr nz) (t0 dt : ℝ) (ht0 : 0 ≤ t0) (hdt : 0 < dt) (A : ℕ → Grid) (N : ℕ) :
    ∃ s, probeRun nr nz fpf p t0 dt A ⟨0, fun _ => none⟩ N = some s ∧
      s.step_number = (records p t0 dt A N).length ∧
      ∀ f, s.dir f = fileOf fpf (records p t0 dt A N) f := by
  induction N with
  | zero => exact ⟨_, rfl, rfl, fun f => by simp [fileOf, records, firingSteps]⟩
  | succ N ih =>
    obtain ⟨s, h1, h2, h3⟩ := ih
    have htr : truncZ ((t0 + N * dt) / dt) = ⌊t0 / dt⌋ + N := by
      rw [truncZ_nonneg (by positivity)]
      have : (t0 + N * dt) / dt = t0 / dt + N := by field_simp
      rw [this, Int.floor_add_natCast]
    have hstep : probeRun nr nz fpf p t0 dt A ⟨0, fun _ => none⟩ (N + 1)
        = probeStep nr nz fpf p (t0 + N * dt) dt (A N) s := by
      simp only [probeRun, h1, Option.bind_some]
    have hrec : records p t0 dt A (N + 1) = records p t0 dt A N ++
        (open Classical in if p.schedule ∣ ⌊t0 / dt⌋ + N then [(p.window (A N)).map fmt6] else []) := by
      classical
      unfold records firingSteps
      rw [List.range_succ, List.filter_append, List.map_append]
      congr 1
      by_cases hd : p.schedule ∣ ⌊t0 / dt⌋ + N
      · simp [hd]
      · simp [hd]
    rw [hstep, hrec]
    unfold probeStep
    rw [if_neg hs.ne', htr]
    by_cases hd : p.schedule ∣ ⌊t0 / dt⌋ + N
    · rw [if_pos (Int.tmod_eq_zero_of_dvd hd), if_neg hfpf.ne', readCells_some ((cells_inBounds p nr nz).2 hin), cells_window, if_pos hd]
      refine ⟨_, rfl, by simp [h2], ?_⟩
      intro f
      rw [fileOf_snoc fpf hfpf]
      simp only [Dir.append, h2]
      by_cases hf : f = (records p t0 dt A N).length / fpf
      · subst hf
        rw [if_pos rfl, Function.update_self, h3]
      · rw [if_neg hf, Function.update_of_ne hf, h3]
    · rw [if_neg (fun h => hd (Int.dvd_of_tmod_eq_zero h)), if_neg hd, List.append_nil]
      exact ⟨s, rfl, h2, h3⟩

theorem filter_dvd_range (s : ℕ) (hs : 0 < s) (N : ℕ) :
    (List.range N).filter (fun j => s ∣ j) = (List.range ((N + s - 1) / s)).map (· * s) := by
  induction N with
  | zero =>
    have : (0 + s - 1) / s = 0 := Nat.div_eq_of_lt (by omega)
    rw [this]; rfl
  | succ N ih =>
    rw [List.range_succ, List.filter_append, ih]
    by_cases h : s ∣ N
    · obtain ⟨q, rfl⟩ := h
      have e1 : (s * q + 1 + s - 1) / s = q + 1 := by
        rw [show s * q + 1 + s - 1 = s * (q + 1) by rw [Nat.mul_add]; omega, Nat.mul_div_cancel_left _ hs]
      have e2 : (s * q + s - 1) / s = q := by
        rw [show s * q + s - 1 = (s - 1) + s * q by omega, Nat.add_mul_div_left _ _ hs,
          Nat.div_eq_of_lt (by omega), Nat.zero_add]
      rw [e1, e2, List.range_succ]
      simp [Nat.mul_comm]
    · have e : (N + 1 + s - 1) / s = (N + s - 1) / s := by
        rw [show N + 1 + s - 1 = N + s by omega]
        obtain ⟨m, r, hr, e⟩ : ∃ m r, r < s ∧ N = s * m + r :=
          ⟨N / s, N % s, Nat.mod_lt _ hs, (Nat.div_add_mod N s).symm⟩
        have hr0 : r ≠ 0 := fun h0 => h ⟨m, by omega⟩
        have d1 : (N + s) / s = m + 1 := by
          rw [show N + s = r + s * (m + 1) by rw [Nat.mul_add]; omega, Nat.add_mul_div_left _ _ hs,
            Nat.div_eq_of_lt hr, Nat.zero_add]
        have d2 : (N + s - 1) / s = m + 1 := by
          rw [show N + s - 1 = (r - 1) + s * (m + 1) by rw [Nat.mul_add]; omega,
            Nat.add_mul_div_left _ _ hs, Nat.div_eq_of_lt (by omega), Nat.zero_add]
        rw [d1, d2]
      rw [e]; simp [h]

/-- **C32** For a run from time zero, record `n` is the window of the array at step `n·schedule`. -/
theorem C32_record_from_zero (p : ProbeCfg) (hs : 0 < p.schedule) (dt : ℝ) (A : ℕ → Grid) (N n : ℕ)
    (hn : (n : ℤ) * p.schedule < N) :
    (records p 0 dt A N)[n]? = some ((p.window (A (n * p.schedule.toNat))).map fmt6) := by
  obtain ⟨s, hs'⟩ := Int.eq_ofNat_of_zero_le hs.le
  have hs0 : 0 < s := by omega
  have e : firingSteps p 0 dt N = (List.range ((N + s - 1) / s)).map (· * s) := by
    rw [← filter_dvd_range s hs0]
    unfold firingSteps
    apply List.filter_congr
    intro j _
    have : p.schedule ∣ ⌊(0 : ℝ) / dt⌋ + j ↔ s ∣ j := by
      rw [zero_div, Int.floor_zero, zero_add, hs']
      exact Int.natCast_dvd_natCast
    simp only [this]
  unfold records
  rw [e, List.map_map, List.getElem?_map, List.getElem?_range]
  · simp [hs']
  · rw [hs'] at hn
    have : n * s < N := by exact_mod_cast hn
    have h2 : n + 1 ≤ (N + s - 1) / s := by
      rw [Nat.le_div_iff_mul_le hs0, Nat.add_mul]; omega
    omega

/-- **C32** The text format keeps every value to a relative error of 5·10⁻⁶. -/
theorem C32_six_digits (x : ℝ) : |fmt6 x - x| ≤ 5e-6 * |x| := by
  unfold fmt6
  split_ifs with h
  · simp [h]
  · have hx : 0 < |x| := abs_pos.2 h
    set e := Int.log 10 |x| with he
    have h10 : (0 : ℝ) < (10 : ℝ) ^ (e - 5) := zpow_pos (by norm_num) _
    have h1 : (10 : ℝ) ^ e ≤ |x| := by exact_mod_cast Int.zpow_log_le_self (b := 10) (by norm_num) hx
    have h2 : (10 : ℝ) ^ e = (10 : ℝ) ^ (e - 5) * 10 ^ 5 := by
      rw [← zpow_natCast, ← zpow_add₀ (by norm_num)]; norm_num
    have h3 := abs_sub_round (x / (10 : ℝ) ^ (e - 5))
    have h4 : (round (x / (10 : ℝ) ^ (e - 5)) : ℝ) * (10 : ℝ) ^ (e - 5) - x
        = -(x / (10 : ℝ) ^ (e - 5) - round (x / (10 : ℝ) ^ (e - 5))) * (10 : ℝ) ^ (e - 5) := by
      field_simp; ring
    rw [h4, abs_mul, abs_neg, abs_of_pos h10]
    nlinarith

/-- **C32** fails for a window reaching outside the array: the first firing reads out of bounds. -/
theorem C32_window_outside_fails (nr nz fpf : ℕ) (p : ProbeCfg) (hout : ¬ p.InBounds nr nz)
    (dt : ℝ) (A : ℕ → Grid) (s0 : ProbeState) :
    probeRun nr nz fpf p 0 dt A s0 1 = none := by
  rw [← cells_inBounds] at hout
  push Not at hout
  obtain ⟨c, hc, hn⟩ := hout
  simp only [probeRun, Option.bind_some, probeStep, Nat.cast_zero, zero_mul, zero_add, zero_div]
  have : truncZ 0 = 0 := by simp [truncZ]
  rw [this, Int.zero_tmod, if_pos rfl, readCells_none ⟨c, hc, hn⟩]
  simp

/-- Not vacuous: a 2×2 frame in a 3×3 array. -/
example : (ProbeCfg.mk .frame 0 1 2 3 5).InBounds 3 3 ∧ 0 < (ProbeCfg.mk .frame 0 1 2 3 5).schedule ∧
    (ProbeCfg.mk .frame 0 1 2 3 5).window (fun i k => 10 * i + k) = [1, 2, 11, 12] := by
  refine ⟨?_, by decide, ?_⟩
  · intro _ _; decide
  · have : Int.toNat 2 = 2 := rfl
    norm_num [ProbeCfg.window, List.range_succ, this]

/-! ## C48: beam density output -/

/-- **C48 (partial)** The i-th beam density array written in a step (from 0) is the deposited density of
the live bunch particles times `i + 2`. Missing: the factor should be 1, see `C48_violated`. -/
theorem C48_outputs_partial (G : Geom) (hG : G.Valid) (bunches : List (List Particle))
    (hin : WithinFarWalls G bunches.flatten) (n : ℕ) :
    ∃ rho D, rhoBeamOutputs G bunches n = some (rho,
        (List.range n).map fun i a b => (((i : ℕ) : ℝ) + 2) * D a b) ∧
      chargeWeightingList G bunches (fun _ _ => 0) = some D := by
  set D : Grid := fun a b => contrib (bunches.flatten.flatMap (particleIncs G)) a b with hD
  have hdep : ∀ rho, chargeWeightingList G bunches rho = some fun a b => rho a b + D a b := by
    intro rho
    rw [C03_species_union, chargeWeighting_some G hG _ hin]
  have key : rhoBeamOutputs G bunches n = some ((fun a b => ((n : ℝ) + 1) * D a b),
      (List.range n).map fun i a b => (((i : ℕ) : ℝ) + 2) * D a b) := by
    induction n with
    | zero => simp [rhoBeamOutputs, hdep]
    | succ n ih =>
      rw [rhoBeamOutputs, ih, Option.bind_some]
      simp only [hdep, Option.map_some, List.range_succ, List.map_append]
      have : (fun a b => ((n : ℝ) + 1) * D a b + D a b) = fun a b => ((n : ℝ) + 2) * D a b := by
        funext a b; ring
      have e2 : (fun a b => (((n + 1 : ℕ) : ℝ) + 1) * D a b) = fun a b => ((n : ℝ) + 2) * D a b := by
        funext a b; push_cast; ring
      simp only [this, e2, List.map_cons, List.map_nil]
  exact ⟨_, D, key, by rw [hdep]; simp⟩

/-- **C48** fails for every beam with a nonzero total charge in the chamber: the array written by the
first beam density probe contains twice the charge of the live bunch particles. -/
theorem C48_violated (G : Geom) (hG : G.Valid) (bunches : List (List Particle))
    (hin : WithinFarWalls G bunches.flatten) (hq : liveCharge bunches.flatten ≠ 0) :
    ∃ rho out, rhoBeamOutputs G bunches 1 = some (rho, [out]) ∧
      totalCharge G out = 2 * liveCharge bunches.flatten ∧
      totalCharge G out ≠ liveCharge bunches.flatten := by
  have h0 : totalCharge G (fun _ _ => 0) = 0 := by simp [totalCharge, gridTotal]
  have c1 : ∀ rho, ∃ rho', chargeWeightingList G bunches rho = some rho' ∧
      totalCharge G rho' = totalCharge G rho + liveCharge bunches.flatten := by
    intro rho
    rw [C03_species_union]
    exact C01_charge_conserved G hG _ hin rho
  obtain ⟨r1, e1, t1⟩ := c1 (fun _ _ => 0)
  obtain ⟨r2, e2, t2⟩ := c1 r1
  refine ⟨r2, r2, ?_, ?_, ?_⟩
  · simp [rhoBeamOutputs, e1, e2]
  · rw [t2, t1, h0]; ring
  · rw [t2, t1, h0]
    intro h
    apply hq; linarith

/-- **C48** fails in legacy builds as well: there the written beam density is zero. -/
theorem C48_legacy_violated (G : Geom) (hG : G.Valid) (bunches : List (List Particle))
    (hin : WithinFarWalls G bunches.flatten) (hq : liveCharge bunches.flatten ≠ 0) :
    ∃ D, chargeWeightingList G bunches (fun _ _ => 0) = some D ∧
      totalCharge G rhoBeamLegacy ≠ totalCharge G D := by
  have h0 : totalCharge G (fun _ _ => 0) = 0 := by simp [totalCharge, gridTotal]
  rw [C03_species_union]
  obtain ⟨r1, e1, t1⟩ := C01_charge_conserved G hG _ hin (fun _ _ => 0)
  refine ⟨r1, e1, ?_⟩
  rw [t1, h0, zero_add]
  have : totalCharge G rhoBeamLegacy = 0 := h0
  rw [this]
  exact fun h => hq h.symm

/-- Not vacuous: one bunch with one live particle. -/
example : WithinFarWalls demoGeom ([[demoParticle 2 1.5 0.25]] : List (List Particle)).flatten ∧
    liveCharge ([[demoParticle 2 1.5 0.25]] : List (List Particle)).flatten ≠ 0 := by
  constructor
  · intro p hp _
    simp only [List.flatten_cons, List.flatten_nil, List.append_nil, List.mem_singleton] at hp
    subst hp
    simp [demoParticle, demoGeom]; norm_num
  · simp [liveCharge, demoParticle]

end Verif
