import Verif.Calculator
import Verif.LimitsProps
import Verif.LoadProps
import Verif.ProbeProps
import Verif.Program
import Verif.PyParamsProps

/-!
# C85: the quick calculator agrees with the simulator
-/

namespace Verif

/-! ## Specification -/

/-- The species as the checker of the simulator sees it -/
noncomputable def SpecieSettings.toCfg (s : SpecieSettings) : SpecieCfg :=
  ⟨String.ofList s.name, s.number_macro, s.left_density, s.right_density, s.temperature⟩

/-- When a bunch of the beam passes the left end of the chamber -/
def Entering (B : BunchCfg) (bunches : ℕ) (t : ℝ) : Prop := ∃ n < bunches, B.begin n ≤ t ∧ t ≤ B.finish n

/-- Debye length of an electron gas with density `n` and temperature `T` in eV, in SI units: √(ε₀ T e / (n e²)) -/
noncomputable def debyeSI (n T : ℝ) : ℝ := Real.sqrt (EPSILON0 * (T * EL_CHARGE) / (n * EL_CHARGE ^ 2))

/-- The species whose name the calculator and the checker of the simulator understand alike -/
def NameAlike (s : SpecieSettings) : Prop := pyLower s.name = "electrons".toList ↔ s.toCfg.isElectrons = true

/-! ## Lemmas -/

theorem floatDiv_some {x y z : ℝ} (h : floatDiv x y = some z) : y ≠ 0 ∧ z = x / y := by
  unfold floatDiv at h
  split_ifs at h with h0
  exact ⟨h0, (Option.some.inj h).symm⟩

theorem mathSqrt_some {x z : ℝ} (h : mathSqrt x = some z) : 0 ≤ x ∧ z = Real.sqrt x := by
  unfold mathSqrt at h
  split_ifs at h with h0
  exact ⟨not_lt.1 h0, (Option.some.inj h).symm⟩

theorem langmurFreq_some {n w : ℝ} (h : langmurFreq n = some w) :
    0 ≤ n ∧ w = Real.sqrt (n * (-1.6e-19) ^ 2 / (9.1e-31 * 8.8e-12)) := by
  unfold langmurFreq at h
  obtain ⟨q, hq, h⟩ := obind_some h
  obtain ⟨-, rfl⟩ := floatDiv_some hq
  obtain ⟨h0, rfl⟩ := mathSqrt_some h
  refine ⟨?_, rfl⟩
  by_contra hn
  push Not at hn
  have : n * (-1.6e-19) ^ 2 / (9.1e-31 * 8.8e-12) < 0 :=
    div_neg_of_neg_of_pos (mul_neg_of_neg_of_pos hn (by norm_num)) (by norm_num)
  linarith

/-- All that a report says -/
theorem calcReport_some {p : PyParams} {n T : ℝ} {r : CalcReport} (h : calcReport p n T = some r) :
    p.beam_initial_velocity ≠ 0 ∧ p.step_interval ≠ 0 ∧ 0 ≤ n ∧
    r.frequency = Real.sqrt (n * (-1.6e-19) ^ 2 / (9.1e-31 * 8.8e-12)) / (2 * Real.pi) ∧
    (Real.sqrt (n * (-1.6e-19) ^ 2 / (9.1e-31 * 8.8e-12)) ≠ 0 ∧ r.wake = 2 * Real.pi * p.beam_initial_velocity
      / Real.sqrt (n * (-1.6e-19) ^ 2 / (9.1e-31 * 8.8e-12))) ∧
    (0 ≤ 8.8e-12 * 1.38e-23 * eV2kelvin T / (4 * Real.pi * n * (-1.6e-19) ^ 2) ∧
      r.debye = Real.sqrt (8.8e-12 * 1.38e-23 * eV2kelvin T / (4 * Real.pi * n * (-1.6e-19) ^ 2))) ∧
    r.beam_length = p.bunch_length * p.number_bunches + p.bunches_distance * (p.number_bunches - 1) ∧
    r.beam_duration = r.beam_length / p.beam_initial_velocity ∧
    r.passage = p.z_size / p.beam_initial_velocity + r.beam_duration ∧
    r.steps = (p.end_time - p.start_time) / p.step_interval ∧
    r.velocity = p.beam_initial_velocity ∧ r.radius = p.bunch_radius ∧
    r.particles = Real.pi * p.bunch_radius ^ 2 * (p.bunch_length / p.beam_initial_velocity) * p.beam_initial_velocity
      * p.bunch_density * p.number_bunches ∧
    (r.bunch.isSome ↔ p.number_bunches > 1) ∧
    ∀ b, r.bunch = some b → b.duration = p.bunch_length / p.beam_initial_velocity ∧ b.length = p.bunch_length ∧
      b.radius = p.bunch_radius ∧ b.distance = p.bunches_distance + p.bunch_length ∧ b.number = p.number_bunches ∧
      b.particles = Real.pi * p.bunch_radius ^ 2 * (p.bunch_length / p.beam_initial_velocity)
        * p.beam_initial_velocity * p.bunch_density := by
  unfold calcReport at h
  obtain ⟨d, hd, h⟩ := obind_some h
  obtain ⟨_, _, h⟩ := obind_some h
  obtain ⟨bd, hbd, h⟩ := obind_some h
  obtain ⟨w, hw, h⟩ := obind_some h
  obtain ⟨wl, hwl, h⟩ := obind_some h
  obtain ⟨db, hdb, h⟩ := obind_some h
  obtain ⟨f, hf, h⟩ := obind_some h
  obtain ⟨tr, htr, h⟩ := obind_some h
  obtain ⟨st, hst, h⟩ := obind_some h
  obtain ⟨hv, rfl⟩ := floatDiv_some hd
  obtain ⟨-, rfl⟩ := floatDiv_some hbd
  obtain ⟨hn, rfl⟩ := langmurFreq_some hw
  obtain ⟨w', hw', hwl⟩ := obind_some hwl
  obtain ⟨-, rfl⟩ := langmurFreq_some hw'
  obtain ⟨hw0, rfl⟩ := floatDiv_some hwl
  obtain ⟨q, hq, hdb⟩ := obind_some hdb
  obtain ⟨-, rfl⟩ := floatDiv_some hq
  obtain ⟨hdb0, rfl⟩ := mathSqrt_some hdb
  obtain ⟨-, rfl⟩ := floatDiv_some hf
  obtain ⟨-, rfl⟩ := floatDiv_some htr
  obtain ⟨hs, rfl⟩ := floatDiv_some hst
  obtain rfl := (Option.some.inj h).symm
  refine ⟨hv, hs, hn, rfl, ⟨hw0, rfl⟩, ⟨hdb0, rfl⟩, rfl, rfl, rfl, rfl, rfl, rfl, rfl, ?_, ?_⟩
  · dsimp only
    split_ifs with hb <;> simp [hb]
  · intro b hb
    dsimp only at hb
    split_ifs at hb with hb1
    obtain rfl := (Option.some.inj hb).symm
    exact ⟨rfl, rfl, rfl, rfl, rfl, rfl⟩

theorem calculate_report {p : PyParams} {r : CalcReport} (h : calculate p = .report r) :
    ∃ n T, calcElectrons p.particles none = some (n, T) ∧ n ≠ 0 ∧ calcReport p n T = some r := by
  unfold calculate at h
  rcases he : calcElectrons p.particles none with _ | ⟨n, T⟩
  · rw [he] at h; cases h
  · rw [he] at h
    dsimp only at h
    split_ifs at h with h0
    rcases hr : calcReport p n T with _ | r'
    · rw [hr] at h; cases h
    · rw [hr] at h
      cases h
      exact ⟨n, T, rfl, h0, hr⟩

/-- Without the name the variables stay as they were. -/
theorem calcElectrons_of_no {l : List PySpecie} (h : ∀ i ∈ l, pyLower i.name ≠ "electrons".toList)
    (s : Option (ℝ × ℝ)) : calcElectrons l s = s := by
  induction l generalizing s with
  | nil => rfl
  | cons i l ih =>
    rw [calcElectrons, if_neg (h i List.mem_cons_self)]
    exact ih (fun i hi => h i (List.mem_cons_of_mem _ hi)) s

/-- Both programs find the same electrons. -/
theorem electrons_alike {debug : Bool} {cs : List SpecieSettings} {ps : List PySpecie}
    (h : List.Forall₂ (SameSpecie debug) cs ps) (ha : ∀ s ∈ cs, NameAlike s) :
    ∀ m d t s, (∀ x, s = some x → x = (d, t)) → ∀ x, calcElectrons ps s = some x → (checkerLoop (cs.map SpecieSettings.toCfg) (m, d, t)).2 = x := by
  induction h with
  | nil => intro m d t s h2 x hx; exact (h2 x hx).symm
  | @cons a b l l' hab hl ih =>
    intro m d t s h2 x hx
    rw [calcElectrons] at hx
    rw [List.map_cons, checkerLoop]
    have hn := ha a List.mem_cons_self
    rw [NameAlike, ← hab.name] at hn
    have ih' := ih fun s hs => ha s (List.mem_cons_of_mem _ hs)
    by_cases hi : pyLower b.name = "electrons".toList
    · rw [if_pos hi] at hx
      rw [if_pos (hn.1 hi)]
      refine ih' _ _ _ _ ?_ x hx
      intro x hx
      obtain rfl := (Option.some.inj hx).symm
      simp only [SpecieSettings.toCfg, hab.left_density, hab.right_density, hab.temperature]
    · rw [if_neg hi] at hx
      rw [if_neg (fun h => hi (hn.2 h))]
      exact ih' _ _ _ _ h2 x hx

/-! ## Theorems -/

/-- **C85** What the calculator says about the beam is what the simulator does with the same settings: the time the
beam takes to enter and to pass, its velocity, radius and length, the number of bunches, the duration, radius and length of a
bunch, the distance of two bunches in a row. -/
theorem C85_beam (file : List Char) (c : Config) (p : PyParams) (hs : SameSettings file c p)
    (hb : 1 ≤ c.beam.number_bunches) (hpb : p.number_bunches = c.beam.number_bunches)
    (hv : 0 < c.beam.initial_velocity) (hl : 0 ≤ c.beam.length) (hd : 0 ≤ c.beam.bunches_distance)
    (r : CalcReport) (hr : calculate p = .report r) :
    IsGreatest {t | Entering c.beamSetup.toBunchCfg c.beamSetup.number_bunches t} r.beam_duration ∧
    IsGreatest {t | ∃ s, Entering c.beamSetup.toBunchCfg c.beamSetup.number_bunches s ∧
      t = s + c.geom.z_size / c.beam.initial_velocity} r.passage ∧
    r.velocity = c.beamSetup.velocity ∧ r.radius = c.beamSetup.radius ∧
    r.beam_length = c.beamSetup.velocity * r.beam_duration ∧
    (r.bunch.isSome ↔ 1 < c.beam.number_bunches) ∧
    ∀ b, r.bunch = some b → b.radius = c.beamSetup.radius ∧ b.number = c.beamSetup.number_bunches ∧
      ∀ n, b.duration = c.beamSetup.finish n - c.beamSetup.begin n ∧ b.length = c.beamSetup.velocity * b.duration ∧
        b.distance = c.beamSetup.velocity * (c.beamSetup.begin (n + 1) - c.beamSetup.begin n) := by
  obtain ⟨n, T, -, -, hr⟩ := calculate_report hr
  obtain ⟨-, -, -, -, -, -, hbl, hbd, hps, -, hvel, hrad, -, hsome, hbunch⟩ := calcReport_some hr
  obtain ⟨k, hk⟩ : ∃ k : ℕ, c.beam.number_bunches = k + 1 := ⟨(c.beam.number_bunches - 1).toNat, by omega⟩
  have hkn : c.beamSetup.number_bunches = k + 1 := by
    show c.beam.number_bunches.toNat = k + 1
    omega
  have hpb' : p.number_bunches = (k : ℝ) + 1 := by rw [hpb, hk]; push_cast; ring
  have hdur : r.beam_duration = c.beamSetup.finish k := by
    rw [hbd, hbl, hpb', hs.length, hs.distance, hs.velocity]
    simp only [BunchCfg.finish, BunchCfg.begin, Config.beamSetup]
    field_simp
    ring
  have hl' : 0 ≤ c.beam.length / c.beam.initial_velocity := div_nonneg hl hv.le
  have hd' : 0 ≤ c.beam.bunches_distance / c.beam.initial_velocity := div_nonneg hd hv.le
  have great : IsGreatest {t | Entering c.beamSetup.toBunchCfg c.beamSetup.number_bunches t} r.beam_duration := by
    constructor
    · refine ⟨k, by omega, ?_, hdur.le⟩
      rw [hdur, BunchCfg.finish]
      show _ ≤ _ + c.beam.length / c.beam.initial_velocity
      linarith
    · rintro t ⟨m, hm, -, ht⟩
      rw [hdur]
      refine ht.trans ?_
      have hmk : (m : ℝ) ≤ k := by exact_mod_cast (by omega : m ≤ k)
      simp only [BunchCfg.finish, BunchCfg.begin, Config.beamSetup]
      nlinarith [mul_le_mul_of_nonneg_left hmk hl', mul_le_mul_of_nonneg_left hmk hd']
  refine ⟨great, ⟨⟨r.beam_duration, great.1, ?_⟩, ?_⟩, ?_, ?_, ?_, ?_, ?_⟩
  · rw [hps, hs.z_size, hs.velocity]; ring
  · rintro t ⟨s, h1, rfl⟩
    have := great.2 h1
    rw [hps, hs.z_size, hs.velocity]
    linarith
  · rw [hvel, hs.velocity]; rfl
  · rw [hrad, hs.radius]; rfl
  · rw [hbd, hs.velocity]
    show _ = c.beam.initial_velocity * _
    field_simp
  · rw [hsome, hpb]
    exact_mod_cast Iff.rfl
  · intro b hbb
    obtain ⟨h1, h3, h4, h2, h5, -⟩ := hbunch b hbb
    refine ⟨by rw [h4, hs.radius]; rfl, by rw [h5, hpb', hkn]; push_cast; ring, fun m => ?_⟩
    rw [h3, h1, h2, hs.length, hs.distance, hs.velocity]
    simp only [BunchCfg.finish, BunchCfg.begin, Config.beamSetup]
    refine ⟨by ring, by field_simp, ?_⟩
    push_cast
    field_simp
    ring

/-- **C85** The number of particles of the beam, times the charge of one, is the charge the simulator prescribes for its
bunches (C28), up to the digits of π that the simulator leaves out. -/
theorem C85_particles (file : List Char) (c : Config) (p : PyParams) (hs : SameSettings file c p)
    (hb : 0 ≤ c.beam.number_bunches) (hpb : p.number_bunches = c.beam.number_bunches)
    (r : CalcReport) (hr : calculate p = .report r) :
    let q := prescribedBunchCharge c.beamSetup.charge c.beamSetup.duration c.beamSetup.radius c.beamSetup.density
      c.beamSetup.velocity
    |r.particles * c.beamSetup.charge - c.beamSetup.number_bunches * q| ≤ 1e-16 * |c.beamSetup.number_bunches * q| ∧
    ∀ b, r.bunch = some b → |b.particles * c.beamSetup.charge - q| ≤ 1e-16 * |q| := by
  intro q
  obtain ⟨n, T, -, -, hr⟩ := calculate_report hr
  obtain ⟨-, -, -, -, -, -, -, -, -, -, -, -, hpart, -, hbunch⟩ := calcReport_some hr
  have hpi : |Real.pi - PI| ≤ 1e-16 * PI := by
    have h1 := Real.pi_gt_d20
    have h2 := Real.pi_lt_d20
    rw [abs_le]
    unfold PI
    constructor <;> norm_num at h1 h2 ⊢ <;> linarith
  have hPI : 0 < PI := PI_pos'
  have key : ∀ x : ℝ, |Real.pi * x - PI * x| ≤ 1e-16 * |PI * x| := by
    intro x
    rw [← sub_mul, abs_mul, abs_mul, abs_of_pos hPI, ← mul_assoc]
    exact mul_le_mul_of_nonneg_right hpi (abs_nonneg _)
  have hnb : (c.beamSetup.number_bunches : ℝ) = p.number_bunches := by
    rw [hpb]
    have : ((c.beam.number_bunches.toNat : ℕ) : ℤ) = c.beam.number_bunches := Int.toNat_of_nonneg hb
    show ((c.beam.number_bunches.toNat : ℕ) : ℝ) = _
    exact_mod_cast congrArg (fun z : ℤ => (z : ℝ)) this
  constructor
  · have h := key (c.beam.radius ^ 2 * (c.beam.length / c.beam.initial_velocity) * c.beam.initial_velocity
      * c.beam.density * p.number_bunches * c.beamSetup.charge)
    have e1 : c.beamSetup.number_bunches * q = PI * (c.beam.radius ^ 2 * (c.beam.length / c.beam.initial_velocity)
        * c.beam.initial_velocity * c.beam.density * p.number_bunches * c.beamSetup.charge) := by
      rw [hnb]
      simp only [q, prescribedBunchCharge, Config.beamSetup]
      ring
    rw [e1, hpart, hs.radius, hs.length, hs.velocity, hs.density]
    refine le_trans (le_of_eq ?_) h
    congr 1
    ring
  · intro b hbb
    obtain ⟨-, -, -, -, -, h2⟩ := hbunch b hbb
    have h := key (c.beam.radius ^ 2 * (c.beam.length / c.beam.initial_velocity) * c.beam.initial_velocity
      * c.beam.density * c.beamSetup.charge)
    have e1 : q = PI * (c.beam.radius ^ 2 * (c.beam.length / c.beam.initial_velocity)
        * c.beam.initial_velocity * c.beam.density * c.beamSetup.charge) := by
      simp only [q, prescribedBunchCharge, Config.beamSetup]
      ring
    rw [e1, h2, hs.radius, hs.length, hs.velocity, hs.density]
    refine le_trans (le_of_eq ?_) h
    congr 1
    ring

/-- **C85 (partial)** The number of steps that the calculator prints, rounded up, is the number of steps the simulator
does, if the file gives the same start time and current time.
Missing: a current time that is different, see `C85_steps_violated`. -/
theorem C85_steps_partial (file : List Char) (c : Config) (p : PyParams) (hs : SameSettings file c p)
    (hdt : 0 < c.time.delta_t) (hcur : c.time.current_time = c.time.start_time)
    (hend : c.time.start_time ≤ c.time.end_time) (r : CalcReport) (hr : calculate p = .report r) :
    ∃! n : ℕ, (∃ t, TimeLoop c.time.end_time c.time.delta_t c.time.current_time n t) ∧ n = ⌈r.steps⌉ := by
  obtain ⟨_, _, -, -, hr⟩ := calculate_report hr
  obtain ⟨-, -, -, -, -, -, -, -, -, hst, -, -, -, -, -⟩ := calcReport_some hr
  obtain ⟨⟨n, t⟩, ⟨h1, h2, h3, -⟩, -⟩ := C31_steps c.time.current_time c.time.end_time c.time.delta_t hdt
  refine ⟨n, ⟨⟨t, h1⟩, ?_⟩, ?_⟩
  · symm
    rw [Int.ceil_eq_iff, hst, hs.end_time, hs.start_time, hs.step, ← hcur, lt_div_iff₀ hdt, div_le_iff₀ hdt]
    dsimp only at h1 h2 h3
    constructor
    · rcases n with _ | n
      · push_cast
        rw [hcur]
        linarith
      · have := h3 n (by omega)
        push_cast
        nlinarith
    · push_cast
      linarith
  · rintro m ⟨-, hm⟩
    have : (m : ℤ) = n := by
      rw [hm]
      rw [Int.ceil_eq_iff, hst, hs.end_time, hs.start_time, hs.step, ← hcur, lt_div_iff₀ hdt, div_le_iff₀ hdt]
      dsimp only at h1 h2 h3
      constructor
      · rcases n with _ | n
        · push_cast
          rw [hcur]
          linarith
        · have := h3 n (by omega)
          push_cast
          nlinarith
      · push_cast
        linarith
    exact_mod_cast this

/-- **C85 (partial)** Where both programs understand the names of the species alike and the simulator's checker goes on,
the calculator's plasma frequency is the checker's up to 0.3 % (and the factor 2π, the checker's being angular), and
the wake it expects is the way of the beam in one such period.
Missing: names that are understood differently, see `C85_name_violated`. -/
theorem C85_frequency_partial (file : List Char) (c : Config) (p : PyParams) (hs : SameSettings file c p)
    (hn : ∀ s ∈ c.species, NameAlike s) (mem : ℝ) (k : Checker)
    (hk : mkChecker mem (c.species.map SpecieSettings.toCfg) = some k)
    (r : CalcReport) (hr : calculate p = .report r) :
    ∃ w, k.plasma_freq = some w ∧ 0 < w ∧ |2 * Real.pi * r.frequency - w| ≤ 3 / 1000 * w ∧
      r.wake * r.frequency = c.beam.initial_velocity := by
  obtain ⟨n, T, he, hn0, hr⟩ := calculate_report hr
  obtain ⟨-, -, hnn, hf, ⟨hw0, hw⟩, -, -, -, -, -, -, -, -, -, -⟩ := calcReport_some hr
  have hloop := electrons_alike hs.species hn mem 0 0 none (by simp) _ he
  have hpi := Real.pi_pos
  have hnpos : 0 < n := lt_of_le_of_ne hnn (Ne.symm hn0)
  unfold mkChecker at hk
  rcases hc : checkerLoop (c.species.map SpecieSettings.toCfg) (mem, 0, 0) with ⟨m, d, t⟩
  rw [hc] at hk hloop
  simp only [Prod.mk.injEq] at hloop
  obtain ⟨rfl, rfl⟩ := hloop
  dsimp only at hk
  split_ifs at hk with h0
  obtain rfl := (Option.some.inj hk).symm
  have hq : 0 < d * EL_CHARGE * EL_CHARGE / (EL_MASS * EPSILON0) := by
    have := EL_CHARGE_pos; have := EL_MASS_pos; have := EPSILON0_pos
    positivity
  refine ⟨Real.sqrt (d * EL_CHARGE * EL_CHARGE / (EL_MASS * EPSILON0)), ?_, Real.sqrt_pos.2 hq, ?_, ?_⟩
  · dsimp only
    unfold sqrtNan
    rw [if_neg (not_lt.2 hq.le)]
  · rw [hf, mul_div_cancel₀ _ (by positivity)]
    obtain ⟨x, hx⟩ : ∃ x, x = d * EL_CHARGE * EL_CHARGE / (EL_MASS * EPSILON0) := ⟨_, rfl⟩
    have e : d * (-1.6e-19) ^ 2 / (9.1e-31 * 8.8e-12) = x * (885 / 880) := by
      rw [hx]
      unfold EL_CHARGE EL_MASS EPSILON0
      ring
    rw [← hx] at hq ⊢
    rw [e, Real.sqrt_mul hq.le, abs_of_nonneg, sub_le_iff_le_add]
    · have : Real.sqrt (885 / 880) ≤ 1003 / 1000 := by
        rw [Real.sqrt_le_left (by norm_num)]
        norm_num
      nlinarith [Real.sqrt_nonneg x]
    · have : 1 ≤ Real.sqrt (885 / 880) := by
        rw [Real.one_le_sqrt]; norm_num
      nlinarith [Real.sqrt_nonneg x]
  · rw [hf, hw, hs.velocity]
    field_simp

/-- **C85 violated: Debye length.** The calculator divides by 4π, which belongs to the other system of units: whatever the
(positive) density and temperature, its Debye length is less than 3/10 of the real one, which the checker of the
simulator has right to 1 %. -/
theorem C85_debye_violated (file : List Char) (c : Config) (p : PyParams) (hs : SameSettings file c p)
    (hn : ∀ s ∈ c.species, NameAlike s) (mem : ℝ) (k : Checker)
    (hk : mkChecker mem (c.species.map SpecieSettings.toCfg) = some k)
    (r : CalcReport) (hr : calculate p = .report r) :
    ∃ n T l, 0 < n ∧ 0 < T ∧ k.debye_length = some l ∧ |l - debyeSI n T| ≤ 1 / 100 * debyeSI n T ∧
      r.debye < 3 / 10 * debyeSI n T ∧ r.debye < 3 / 10 * l := by
  obtain ⟨n, T, he, hn0, hr⟩ := calculate_report hr
  obtain ⟨-, -, hnn, -, -, ⟨hd0, hd⟩, -⟩ := calcReport_some hr
  have hloop := electrons_alike hs.species hn mem 0 0 none (by simp) _ he
  have hpi := Real.pi_pos
  have hpi3 := Real.pi_gt_three
  have hnpos : 0 < n := lt_of_le_of_ne hnn (Ne.symm hn0)
  unfold mkChecker at hk
  rcases hc : checkerLoop (c.species.map SpecieSettings.toCfg) (mem, 0, 0) with ⟨m, d, t⟩
  rw [hc] at hk hloop
  simp only [Prod.mk.injEq] at hloop
  obtain ⟨rfl, rfl⟩ := hloop
  dsimp only at hk
  split_ifs at hk with h0
  obtain rfl := (Option.some.inj hk).symm
  push Not at h0
  have hT0 : 0 ≤ t := by
    by_contra hT
    push Not at hT
    have : 8.8e-12 * 1.38e-23 * eV2kelvin t / (4 * Real.pi * d * (-1.6e-19) ^ 2) < 0 := by
      unfold eV2kelvin
      apply div_neg_of_neg_of_pos
      · nlinarith
      · positivity
    linarith
  have hT : 0 < t := lt_of_le_of_ne hT0 (Ne.symm h0.2)
  obtain ⟨x, hx⟩ : ∃ x, x = Real.sqrt (t / d) := ⟨_, rfl⟩
  have hx0 : 0 < x := by rw [hx]; exact Real.sqrt_pos.2 (by positivity)
  have e1 : debyeSI d t = Real.sqrt (EPSILON0 / EL_CHARGE) * x := by
    have := EL_CHARGE_pos; have := EPSILON0_pos
    rw [debyeSI, hx, ← Real.sqrt_mul (by positivity)]
    congr 1
    field_simp
  have s1 : 7420 ≤ Real.sqrt (EPSILON0 / EL_CHARGE) := by
    apply Real.le_sqrt_of_sq_le
    unfold EPSILON0 EL_CHARGE
    norm_num
  have s2 : Real.sqrt (EPSILON0 / EL_CHARGE) ≤ 7450 := by
    rw [Real.sqrt_le_left (by norm_num)]
    unfold EPSILON0 EL_CHARGE
    norm_num
  have s3 : r.debye < 2150 * x := by
    rw [hd]
    have : Real.sqrt (8.8e-12 * 1.38e-23 * eV2kelvin t / (4 * Real.pi * d * (-1.6e-19) ^ 2))
        = Real.sqrt (8.8e-12 * 1.38e-23 * 1.16045221e4 / (4 * Real.pi * (-1.6e-19) ^ 2)) * x := by
      rw [hx, ← Real.sqrt_mul (by positivity)]
      congr 1
      unfold eV2kelvin
      field_simp
    rw [this]
    apply mul_lt_mul_of_pos_right _ hx0
    rw [Real.sqrt_lt' (by norm_num), div_lt_iff₀ (by positivity)]
    norm_num
    nlinarith
  refine ⟨d, t, 7400 * x, hnpos, hT, ?_, ?_, ?_, ?_⟩
  · dsimp only
    unfold sqrtNan
    rw [if_neg (not_lt.2 (by positivity)), ← hx]
    rfl
  · rw [e1, abs_le]
    constructor <;> nlinarith
  · rw [e1]; nlinarith
  · nlinarith

/-- **C85 violated: the message.** That the section of the electrons is missing is said only if it is not: without it the
calculator dies of an exception. -/
theorem C85_message_violated (p : PyParams) :
    (calculate p = .message → ∃ i ∈ p.particles, pyLower i.name = "electrons".toList) ∧
    ((∀ i ∈ p.particles, pyLower i.name ≠ "electrons".toList) → calculate p = .raised) := by
  have h : (∀ i ∈ p.particles, pyLower i.name ≠ "electrons".toList) → calculate p = .raised := by
    intro h
    unfold calculate
    rw [calcElectrons_of_no h]
  refine ⟨fun hm => ?_, h⟩
  by_contra hn
  push Not at hn
  rw [h hn] at hm
  cases hm

/-- **C85 violated: the number of steps.** The simulator starts from the current time of the file, which the calculator does
not read: where it lies a step before the start time the simulator does more steps than the calculator says, and a step
after it fewer. -/
theorem C85_steps_violated (file : List Char) (c : Config) (p : PyParams) (hs : SameSettings file c p)
    (hdt : 0 < c.time.delta_t) (r : CalcReport) (hr : calculate p = .report r)
    (n : ℕ) (t : ℝ) (hn : TimeLoop c.time.end_time c.time.delta_t c.time.current_time n t) :
    (c.time.current_time + c.time.delta_t ≤ c.time.start_time → c.time.start_time ≤ c.time.end_time →
      ⌈r.steps⌉ < n) ∧
    (c.time.start_time + c.time.delta_t ≤ c.time.current_time → c.time.current_time ≤ c.time.end_time →
      (n : ℤ) < ⌈r.steps⌉) := by
  obtain ⟨_, _, -, -, hr⟩ := calculate_report hr
  obtain ⟨-, -, -, -, -, -, -, -, -, hst, -, -, -, -, -⟩ := calcReport_some hr
  have hcount : c.time.end_time ≤ c.time.current_time + n * c.time.delta_t ∧
      ∀ m : ℕ, m < n → c.time.current_time + m * c.time.delta_t < c.time.end_time := by
    clear hst hr hs
    obtain ⟨e, he⟩ : ∃ e, e = c.time.end_time := ⟨_, rfl⟩
    obtain ⟨s, h0⟩ : ∃ s, s = c.time.current_time := ⟨_, rfl⟩
    rw [← he, ← h0] at hn ⊢
    clear h0 he
    induction hn with
    | exit t h => exact ⟨by simpa using h, fun m hm => by omega⟩
    | iter t n t' h _ ih =>
      obtain ⟨i1, i2⟩ := ih
      refine ⟨by push_cast; linarith, fun m hm => ?_⟩
      rcases m with _ | m
      · simpa using h
      · have := i2 m (by omega)
        push_cast
        linarith
  obtain ⟨h1, h2⟩ := hcount
  rw [hst, hs.end_time, hs.start_time, hs.step]
  constructor
  · intro ha hb
    have : (c.time.end_time - c.time.start_time) / c.time.delta_t ≤ ((n - 1 : ℤ) : ℝ) := by
      rw [div_le_iff₀ hdt]
      push_cast
      nlinarith
    have := Int.ceil_le.2 this
    omega
  · intro ha hb
    rw [Int.lt_ceil, lt_div_iff₀ hdt]
    push_cast
    rcases n with _ | n
    · push_cast
      linarith
    · have := h2 n (by omega)
      push_cast
      nlinarith

/-! ## Cases -/

/-- Settings with one species of the given name -/
noncomputable def calcCfg (name : List Char) (density current : ℝ) : Config where
  debug := false
  use_hdf5 := false
  geom := ⟨1, 2, 16, 32⟩
  pml := ⟨0, 0, 0, 0, 0⟩
  time := ⟨current, 0, 0, 10, 3⟩
  species := [⟨name, -1, 1, 100, density, density, 1⟩]
  beam := ⟨none, -1, 1, 2, 3, 10, 100, 1, 1, 1⟩
  dump := ⟨some [], some [], 1, false, 0⟩
  probes := []

/-- What the tools read of them -/
noncomputable def calcPar (name : List Char) (density : ℝ) : PyParams where
  use_hdf5 := .bool false
  number_r_grid := 16
  number_z_grid := 32
  r_size := 1
  z_size := 2
  probes := []
  data_root := []
  data_path := pyDataPath [] []
  frames_per_file := 1
  bunch_density := 1
  bunch_radius := 1
  bunch_length := 1
  number_bunches := 2
  bunches_distance := 3
  beam_initial_velocity := 10
  particles := [⟨name, -1, 1, 100, density, density, 1⟩]
  start_time := 0
  end_time := 10
  step_interval := 3

theorem calc_same (name : List Char) (density current : ℝ) :
    SameSettings [] (calcCfg name density current) (calcPar name density) where
  nr := rfl
  nz := rfl
  r_size := rfl
  z_size := rfl
  probes := .nil
  data_root := rfl
  data_path := ⟨[], rfl, rfl⟩
  fpf := fun _ => rfl
  density := rfl
  radius := rfl
  length := rfl
  distance := rfl
  velocity := rfl
  species := .cons ⟨rfl, rfl, fun _ => rfl, fun _ => rfl, rfl, rfl, rfl⟩ .nil
  start_time := rfl
  end_time := rfl
  step := rfl

theorem calc_report (name : List Char) (hn : pyLower name = "electrons".toList) :
    ∃ r, calculate (calcPar name 1) = .report r := by
  have hpi := Real.pi_pos
  have e : calcElectrons (calcPar name 1).particles none = some (1, 1) := by
    simp only [calcPar, calcElectrons]
    rw [if_pos hn]
    norm_num
  have s : mathSqrt (1 * (-1.6e-19) ^ 2 / (9.1e-31 * 8.8e-12)) =
      some (Real.sqrt (1 * (-1.6e-19) ^ 2 / (9.1e-31 * 8.8e-12))) := by
    unfold mathSqrt
    rw [if_neg (not_lt.2 (by norm_num))]
  have d : ∀ x y : ℝ, y ≠ 0 → floatDiv x y = some (x / y) := fun x y hy => by
    unfold floatDiv
    rw [if_neg hy]
  have l : langmurFreq 1 = some (Real.sqrt (1 * (-1.6e-19) ^ 2 / (9.1e-31 * 8.8e-12))) := by
    unfold langmurFreq
    rw [d _ _ (by norm_num)]
    exact s
  have w : ∃ y, wakeLength 1 10 = some y := by
    unfold wakeLength
    rw [l]
    refine ⟨_, d _ _ (Real.sqrt_pos.2 (by norm_num)).ne'⟩
  have b : ∃ y, calcDebye 1 (eV2kelvin 1) = some y := by
    unfold calcDebye
    rw [d _ _ (by positivity)]
    refine ⟨_, if_neg (not_lt.2 ?_)⟩
    unfold eV2kelvin
    positivity
  obtain ⟨wy, w⟩ := w
  obtain ⟨dy, b⟩ := b
  have r : (calcReport (calcPar name 1) 1 1).isSome = true := by
    unfold calcReport
    show (floatDiv 1 10 >>= _).isSome = _
    rw [d _ _ (by norm_num)]
    show (floatDiv 3 10 >>= _).isSome = _
    rw [d _ _ (by norm_num)]
    show (floatDiv _ 10 >>= _).isSome = _
    rw [d _ _ (by norm_num)]
    show (langmurFreq 1 >>= _).isSome = _
    rw [l]
    show (wakeLength 1 10 >>= _).isSome = _
    rw [w]
    show (calcDebye 1 (eV2kelvin 1) >>= _).isSome = _
    rw [b]
    show (floatDiv _ (2 * Real.pi) >>= _).isSome = _
    rw [d _ _ (by positivity)]
    show (floatDiv 2 10 >>= _).isSome = _
    rw [d _ _ (by norm_num)]
    show (floatDiv (10 - 0) 3 >>= _).isSome = _
    rw [d _ _ (by norm_num)]
    rfl
  obtain ⟨r, hr⟩ := Option.isSome_iff_exists.1 r
  refine ⟨r, ?_⟩
  unfold calculate
  rw [e]
  simp only [one_ne_zero, if_false, hr]

theorem calc_checker (name : List Char) (s : SpecieSettings) (hs : s = ⟨name, -1, 1, 100, 1, 1, 1⟩) :
    (s.toCfg.isElectrons = true → ∃ k, mkChecker 0 ((calcCfg name 1 0).species.map SpecieSettings.toCfg) = some k) ∧
    (s.toCfg.isElectrons = false → mkChecker 0 ((calcCfg name 1 0).species.map SpecieSettings.toCfg) = none) := by
  have hc : (calcCfg name 1 0).species.map SpecieSettings.toCfg = [s.toCfg] := by rw [hs]; rfl
  rw [hc]
  constructor
  · intro h
    have hl : checkerLoop [s.toCfg] (0, 0, 0) = (100, 1, 1) := by
      rw [checkerLoop, if_pos h, checkerLoop, hs]
      simp only [SpecieSettings.toCfg]
      norm_num
    unfold mkChecker
    rw [hl]
    dsimp only
    rw [if_neg (by norm_num)]
    exact ⟨_, rfl⟩
  · intro h
    have hl : checkerLoop [s.toCfg] (0, 0, 0) = (100, 0, 0) := by
      rw [checkerLoop, if_neg (by rw [h]; decide), checkerLoop, hs]
      simp only [SpecieSettings.toCfg]
      norm_num
    unfold mkChecker
    rw [hl]
    dsimp only
    rw [if_pos (Or.inl rfl)]

/-- **C85 violated: names.** Electrons called `electron` are electrons for the simulator, which goes on, but not for the
calculator, which dies of an exception; and for `ELECTRONS` it is the other way round. -/
theorem C85_name_violated :
    (∃ c p k, SameSettings [] c p ∧ mkChecker 0 (c.species.map SpecieSettings.toCfg) = some k ∧ calculate p = .raised) ∧
    (∃ c p r, SameSettings [] c p ∧ mkChecker 0 (c.species.map SpecieSettings.toCfg) = none ∧
      calculate p = .report r) := by
  constructor
  · obtain ⟨k, hk⟩ := (calc_checker "electron".toList _ rfl).1 (by simp [SpecieCfg.isElectrons, SpecieSettings.toCfg])
    refine ⟨calcCfg "electron".toList 1 0, calcPar "electron".toList 1, k, calc_same _ _ _, hk, ?_⟩
    refine (C85_message_violated _).2 ?_
    intro i hi
    obtain rfl : i = ⟨"electron".toList, -1, 1, 100, 1, 1, 1⟩ := List.mem_singleton.1 hi
    decide
  · obtain ⟨r, hr⟩ := calc_report "ELECTRONS".toList (by decide)
    exact ⟨calcCfg "ELECTRONS".toList 1 0, calcPar "ELECTRONS".toList 1, r, calc_same _ _ _,
      (calc_checker _ _ rfl).2 (by simp [SpecieCfg.isElectrons, SpecieSettings.toCfg]), hr⟩

/-- The hypotheses of the theorems are met, with the simulator's checker going on; with `current = -3` or `3` those of
`C85_steps_violated`. -/
example : ∃ k r, SameSettings [] (calcCfg "electrons".toList 1 0) (calcPar "electrons".toList 1) ∧
    (∀ s ∈ (calcCfg "electrons".toList 1 0).species, NameAlike s) ∧
    mkChecker 0 ((calcCfg "electrons".toList 1 0).species.map SpecieSettings.toCfg) = some k ∧
    calculate (calcPar "electrons".toList 1) = .report r ∧ r.bunch.isSome := by
  obtain ⟨r, hr⟩ := calc_report "electrons".toList (by decide)
  have h : SpecieCfg.isElectrons (SpecieSettings.toCfg ⟨"electrons".toList, -1, 1, 100, 1, 1, 1⟩) = true := by
    simp [SpecieCfg.isElectrons, SpecieSettings.toCfg]
  obtain ⟨k, hk⟩ := (calc_checker "electrons".toList _ rfl).1 h
  refine ⟨k, r, calc_same _ _ _, ?_, hk, hr, ?_⟩
  · intro s hs
    obtain rfl : s = ⟨"electrons".toList, -1, 1, 100, 1, 1, 1⟩ := List.mem_singleton.1 hs
    exact ⟨fun _ => h, fun _ => by decide⟩
  · obtain ⟨_, _, -, -, hr⟩ := calculate_report hr
    obtain ⟨-, -, -, -, -, -, -, -, -, -, -, -, -, h, -⟩ := calcReport_some hr
    rw [h]
    simp only [calcPar]
    norm_num

/-- **C85** The limits of the colours of field maps, `[-c, c]`, are those of the simulator's settings: one hundred-thousandth of the sum
over the species of the larger density at the ends times the temperature, times the root of the time step; so they do not
depend on the order of the species or on the side of the larger density, and are in order. -/
theorem C85_colours (file : List Char) (c : Config) (p : PyParams) (hs : SameSettings file c p) :
    climEstimation p = (c.species.map fun s => max s.left_density s.right_density * s.temperature).sum * Real.sqrt c.time.delta_t / 10 ^ 5 ∧
    ((∀ s ∈ c.species, 0 ≤ s.left_density ∧ 0 ≤ s.temperature) → -climEstimation p ≤ climEstimation p) := by
  have e : climEstimation p = (c.species.map fun s => max s.left_density s.right_density * s.temperature).sum * Real.sqrt c.time.delta_t / 10 ^ 5 := by
    unfold climEstimation
    rw [hs.step]
    have h := hs.species
    clear hs
    obtain ⟨cs, hcs⟩ : ∃ cs, cs = c.species := ⟨_, rfl⟩
    obtain ⟨ps, hps⟩ : ∃ ps, ps = p.particles := ⟨_, rfl⟩
    rw [← hcs, ← hps] at h ⊢
    clear hcs hps
    induction h with
    | nil => simp
    | @cons a b l l' hab _ ih =>
      rw [List.map_cons, List.sum_cons, List.map_cons, List.sum_cons, ih, hab.left_density, hab.right_density, hab.temperature]
      have : (if a.left_density > a.right_density then a.left_density else a.right_density) = max a.left_density a.right_density := by
        split
        · rename_i h
          rw [max_eq_left h.le]
        · rename_i h
          rw [max_eq_right (not_lt.1 h)]
      rw [this]
      ring
  refine ⟨e, fun h => ?_⟩
  have : 0 ≤ climEstimation p := by
    rw [e]
    refine div_nonneg (mul_nonneg (List.sum_nonneg ?_) (Real.sqrt_nonneg _)) (by norm_num)
    intro x hx
    obtain ⟨s, hs', rfl⟩ := List.mem_map.1 hx
    exact mul_nonneg ((h s hs').1.trans (le_max_left _ _)) (h s hs').2
  linarith

/-- settings with one species -/
example : climEstimation (calcPar "electrons".toList 1) = 1 / 10 ^ 5 * Real.sqrt (calcCfg "electrons".toList 1 0).time.delta_t := by
  rw [(C85_colours _ _ _ (calc_same "electrons".toList 1 0)).1]
  simp [calcCfg]
  ring

theorem calc_message (name : List Char) (hn : pyLower name = "electrons".toList) :
    calculate (calcPar name 0) = .message := by
  have e : calcElectrons (calcPar name 0).particles none = some (0, 1) := by
    simp only [calcPar, calcElectrons]
    rw [if_pos hn]
    norm_num
  unfold calculate
  rw [e]
  exact if_pos rfl

/-- The message appears with a section of electrons whose density is zero. -/
example : calculate (calcPar "electrons".toList 0) = .message := calc_message _ (by decide)

end Verif
