import Verif.Limits

/-!
# Accepted configurations (C36)
-/

namespace Verif

/-- The electron species whose data are used: the last one with one of the three names. -/
def lastElectrons (species : List SpecieCfg) : Option SpecieCfg := (species.filter SpecieCfg.isElectrons).getLast?

theorem checkerLoop_spec (species : List SpecieCfg) (m d t : ℝ) :
    checkerLoop species (m, d, t) =
      (m + (species.map SpecieCfg.number_macro).sum,
        match lastElectrons species with
        | some e => ((e.left_density + e.right_density) / 2, e.temperature)
        | none => (d, t)) := by
  induction species generalizing m d t with
  | nil => simp [checkerLoop, lastElectrons]
  | cons s l ih =>
    rw [checkerLoop]
    by_cases hs : s.isElectrons = true
    · rw [if_pos hs, ih]
      have : lastElectrons (s :: l) = some ((lastElectrons l).getD s) := by
        unfold lastElectrons
        rw [List.filter_cons_of_pos hs, List.getLast?_cons]
      rw [this]
      rcases hl : lastElectrons l with _ | e <;> simp [add_assoc]
    · rw [if_neg hs, ih]
      have : lastElectrons (s :: l) = lastElectrons l := by
        unfold lastElectrons; rw [List.filter_cons_of_neg hs]
      rw [this]
      simp [add_assoc]

/-- Plasma frequency and Debye length (m; temperature in eV) of a uniform electron gas. -/
noncomputable def plasmaFrequency (n : ℝ) : ℝ := Real.sqrt (n * EL_CHARGE ^ 2 / (EL_MASS * EPSILON0))

/-- See `plasmaFrequency`. -/
noncomputable def debyeLength (n T : ℝ) : ℝ := 7400 * Real.sqrt (T / n)

/-- **C36** (partial) Exactly what acceptance means: there are electrons (the last species so named, with the mean
of its two densities), the time step is at most the light crossing time of a cell in each direction and a
fiftieth of the inverse plasma frequency, the radial step is at most fifty Debye lengths, and the system is at
least a hundred Debye lengths and at most a hundred Debye lengths times the number of macroparticles.
Missing from the property: negative densities (`C36_negative_violated`), the axial step (`C36_axial_step_violated`), the Courant condition
(`C36_courant_violated`) and independence of uninitialised memory (`C36_uninitialised_violated`). -/
theorem C36_accepted_partial (mem : ℝ) (G : Geom) (species : List SpecieCfg) (dt : ℝ)
    (hpos : ∀ s ∈ species, 0 ≤ s.left_density ∧ 0 ≤ s.right_density ∧ 0 ≤ s.temperature) :
    checkConfig mem G species dt = some () ↔
      ∃ e n, lastElectrons species = some e ∧ n = (e.left_density + e.right_density) / 2 ∧ n ≠ 0 ∧
        e.temperature ≠ 0 ∧
        dt ≤ G.dr / LIGHT_SPEED ∧ dt ≤ G.dz / LIGHT_SPEED ∧ dt ≤ 2 / plasmaFrequency n / 100 ∧
        G.dr ≤ debyeLength n e.temperature * 50 ∧
        debyeLength n e.temperature * 100 ≤ G.r_size ∧ debyeLength n e.temperature * 100 ≤ G.z_size ∧
        G.r_size ≤ debyeLength n e.temperature * (mem + (species.map SpecieCfg.number_macro).sum) * 100 ∧
        G.z_size ≤ debyeLength n e.temperature * (mem + (species.map SpecieCfg.number_macro).sum) * 100 := by
  unfold checkConfig mkChecker
  rw [checkerLoop_spec]
  rcases hl : lastElectrons species with _ | e
  · simp
  · simp only [Option.some.injEq, exists_and_left, exists_eq_left']
    by_cases h0 : (e.left_density + e.right_density) / 2 = 0 ∨ e.temperature = 0
    · rw [if_pos h0]
      simp only [Option.bind_none, reduceCtorEq, false_iff]
      rintro ⟨n, rfl, h1, h2, _⟩
      rcases h0 with h | h <;> contradiction
    · rw [if_neg h0]
      push Not at h0
      have he : e ∈ species := by
        have := List.mem_of_getLast? hl
        exact (List.mem_filter.1 this).1
      obtain ⟨p1, p2, p3⟩ := hpos e he
      have hd0 : 0 ≤ (e.left_density + e.right_density) / 2 := by linarith
      have hq1 : sqrtNan ((e.left_density + e.right_density) / 2 * EL_CHARGE * EL_CHARGE / (EL_MASS * EPSILON0))
          = some (Real.sqrt ((e.left_density + e.right_density) / 2 * EL_CHARGE * EL_CHARGE
              / (EL_MASS * EPSILON0))) := by
        unfold sqrtNan
        have := EL_CHARGE_pos; have := EL_MASS_pos; have := EPSILON0_pos
        rw [if_neg (not_lt.2 (by positivity))]
      have hq2 : sqrtNan (e.temperature / ((e.left_density + e.right_density) / 2))
          = some (Real.sqrt (e.temperature / ((e.left_density + e.right_density) / 2))) := by
        unfold sqrtNan
        rw [if_neg (not_lt.2 (by positivity))]
      have hp : Real.sqrt ((e.left_density + e.right_density) / 2 * EL_CHARGE * EL_CHARGE / (EL_MASS * EPSILON0))
          = plasmaFrequency ((e.left_density + e.right_density) / 2) := by
        unfold plasmaFrequency; congr 2; ring
      have hm : ∀ c : Checker, (checkMacroNumber G c).map (fun _ => ()) = some () := by
        intro c; unfold checkMacroNumber; split_ifs <;> rfl
      rw [Option.bind_some, hq1, hq2, hp]
      simp only [checkTimeStep, checkGridSize, checkSystemSize, hm, or_self, exists_eq_left, Option.map_some, gtNan, ltNan, minNan,
        Option.some.injEq, exists_eq_left']
      rw [show 7400 * Real.sqrt (e.temperature / ((e.left_density + e.right_density) / 2))
        = debyeLength ((e.left_density + e.right_density) / 2) e.temperature from rfl]
      by_cases h1 : dt > min (min (G.dr / LIGHT_SPEED) (G.dz / LIGHT_SPEED))
          (2 / plasmaFrequency ((e.left_density + e.right_density) / 2) / 100)
      · rw [if_pos h1]
        simp only [gt_iff_lt, min_lt_iff] at h1
        simp only [Option.bind_none, reduceCtorEq, false_iff]
        rintro ⟨_, _, a, b, d, _⟩
        rcases h1 with (h | h) | h <;> linarith
      rw [if_neg h1, Option.bind_some]
      by_cases h2 : G.dr > debyeLength ((e.left_density + e.right_density) / 2) e.temperature * 50
      · rw [if_pos h2]
        simp only [Option.bind_none, reduceCtorEq, false_iff]
        rintro ⟨_, _, _, _, _, a, _⟩; linarith
      rw [if_neg h2, Option.bind_some]
      split_ifs with h3 h4
      · simp only [Option.bind_none, reduceCtorEq, false_iff]
        rintro ⟨_, _, _, _, _, _, a, b, _⟩; rcases h3 with h | h <;> linarith
      · simp only [Option.bind_none, reduceCtorEq, false_iff]
        rintro ⟨_, _, _, _, _, _, _, _, a, b⟩; rcases h4 with h | h <;> linarith
      · simp only [Option.bind_some, true_iff]
        simp only [gt_iff_lt, not_lt, not_or, le_min_iff] at h1 h2 h3 h4
        exact ⟨h0.1, h0.2, h1.1.1, h1.1.2, h1.2, h2, h3.1, h3.2, h4.1, h4.2⟩

/-- An electron gas with unit plasma frequency and a Debye length of 7400 m, one million macroparticles. -/
noncomputable def sampleElectrons : SpecieCfg :=
  ⟨"electrons", 1000000, EL_MASS * EPSILON0 / EL_CHARGE ^ 2, EL_MASS * EPSILON0 / EL_CHARGE ^ 2,
    EL_MASS * EPSILON0 / EL_CHARGE ^ 2⟩

theorem sample_accepted (mem : ℝ) (G : Geom) (dt : ℝ) (h1 : dt ≤ G.dr / LIGHT_SPEED) (h2 : dt ≤ G.dz / LIGHT_SPEED)
    (h3 : dt ≤ 1 / 50) (h4 : G.dr ≤ 370000) (h5 : 740000 ≤ G.r_size) (h6 : 740000 ≤ G.z_size)
    (h7 : G.r_size ≤ 740000 * (mem + 1000000)) (h8 : G.z_size ≤ 740000 * (mem + 1000000)) :
    checkConfig mem G [sampleElectrons] dt = some () := by
  have hn : EL_MASS * EPSILON0 / EL_CHARGE ^ 2 ≠ 0 :=
    (div_pos (mul_pos EL_MASS_pos EPSILON0_pos) (pow_pos EL_CHARGE_pos 2)).ne'
  have hw : plasmaFrequency (EL_MASS * EPSILON0 / EL_CHARGE ^ 2) = 1 := by
    unfold plasmaFrequency
    have : EL_MASS * EPSILON0 / EL_CHARGE ^ 2 * EL_CHARGE ^ 2 / (EL_MASS * EPSILON0) = 1 := by
      have := EL_MASS_pos.ne'; have := EPSILON0_pos.ne'; have := EL_CHARGE_pos.ne'
      field_simp
    rw [this, Real.sqrt_one]
  have hD : debyeLength (EL_MASS * EPSILON0 / EL_CHARGE ^ 2) (EL_MASS * EPSILON0 / EL_CHARGE ^ 2) = 7400 := by
    unfold debyeLength; rw [div_self hn]; simp
  have hn' : 0 ≤ EL_MASS * EPSILON0 / EL_CHARGE ^ 2 :=
    (div_pos (mul_pos EL_MASS_pos EPSILON0_pos) (pow_pos EL_CHARGE_pos 2)).le
  rw [C36_accepted_partial _ _ _ _ (by simp [sampleElectrons, hn'])]
  have hm : (sampleElectrons.left_density + sampleElectrons.right_density) / 2
      = EL_MASS * EPSILON0 / EL_CHARGE ^ 2 := by simp only [sampleElectrons]; ring
  refine ⟨sampleElectrons, _, ?_, rfl, ?_⟩
  · simp [lastElectrons, SpecieCfg.isElectrons, sampleElectrons]
  · rw [hm, hw]
    simp only [sampleElectrons, hD, List.map_cons, List.map_nil, List.sum_cons, List.sum_nil]
    exact ⟨hn, hn, h1, h2, by linarith, by linarith, by linarith, by linarith, by linarith, by linarith⟩

/-- **C36** is violated in the axial direction: for every bound there is an accepted grid whose axial step
exceeds the Debye length by more than that factor. -/
theorem C36_axial_step_violated (factor : ℝ) : ∃ (G : Geom) (dt mem : ℝ), G.Valid ∧ 0 < dt ∧
    checkConfig mem G [sampleElectrons] dt = some () ∧
    factor * debyeLength (EL_MASS * EPSILON0 / EL_CHARGE ^ 2) (EL_MASS * EPSILON0 / EL_CHARGE ^ 2) < G.dz := by
  have hn : EL_MASS * EPSILON0 / EL_CHARGE ^ 2 ≠ 0 :=
    (div_pos (mul_pos EL_MASS_pos EPSILON0_pos) (pow_pos EL_CHARGE_pos 2)).ne'
  have hD : debyeLength (EL_MASS * EPSILON0 / EL_CHARGE ^ 2) (EL_MASS * EPSILON0 / EL_CHARGE ^ 2) = 7400 := by
    unfold debyeLength; rw [div_self hn]; simp
  set d : ℝ := max 300000 (factor * 7400 + 1) with hd
  have hd1 : 300000 ≤ d := le_max_left _ _
  have hd2 : factor * 7400 + 1 ≤ d := le_max_right _ _
  refine ⟨⟨3000000, d * 10, 11, 11, 300000, d⟩, 1 / 1000, d, ⟨by norm_num, by norm_num, by norm_num,
    by change (0 : ℝ) < d; linarith, by norm_num, by norm_num⟩, by norm_num, ?_, ?_⟩
  · apply sample_accepted
    · unfold LIGHT_SPEED; norm_num
    · change 1 / 1000 ≤ d / LIGHT_SPEED
      rw [le_div_iff₀ LIGHT_SPEED_pos]; unfold LIGHT_SPEED; norm_num; linarith
    · norm_num
    · norm_num
    · norm_num
    · change 740000 ≤ d * 10; linarith
    · change (3000000 : ℝ) ≤ _; linarith
    · change d * 10 ≤ _; linarith
  · rw [hD]; change _ < d; linarith

/-- **C36** is violated with respect to the Courant condition: an accepted configuration with
`c²Δt²(1/Δr² + 1/Δz²) = 2`. -/
theorem C36_courant_violated : ∃ (G : Geom) (dt mem : ℝ), G.Valid ∧ 0 < dt ∧
    checkConfig mem G [sampleElectrons] dt = some () ∧
    1 < LIGHT_SPEED ^ 2 * dt ^ 2 * (1 / G.dr ^ 2 + 1 / G.dz ^ 2) := by
  refine ⟨⟨3000000, 3000000, 11, 11, 300000, 300000⟩, 1 / 1000, 0, ⟨by norm_num, by norm_num, by norm_num,
    by norm_num, by norm_num, by norm_num⟩, by norm_num, ?_, ?_⟩
  · apply sample_accepted <;> norm_num [LIGHT_SPEED]
  · unfold LIGHT_SPEED; norm_num

/-- **C36** is violated because a counter is not initialised: the same configuration is accepted or rejected
depending on what was in memory. -/
theorem C36_uninitialised_violated : ∃ (G : Geom) (dt mem mem' : ℝ), G.Valid ∧
    checkConfig mem G [sampleElectrons] dt = some () ∧ checkConfig mem' G [sampleElectrons] dt = none := by
  refine ⟨⟨3000000, 3000000, 11, 11, 300000, 300000⟩, 1 / 1000, 0, -1000000, ⟨by norm_num, by norm_num, by norm_num,
    by norm_num, by norm_num, by norm_num⟩, ?_, ?_⟩
  · apply sample_accepted <;> norm_num [LIGHT_SPEED]
  · rw [Option.eq_none_iff_forall_not_mem]
    intro u hu
    have hn' : 0 ≤ EL_MASS * EPSILON0 / EL_CHARGE ^ 2 :=
      (div_pos (mul_pos EL_MASS_pos EPSILON0_pos) (pow_pos EL_CHARGE_pos 2)).le
    have := (C36_accepted_partial _ _ _ _ (by simp [sampleElectrons, hn'])).1 hu
    obtain ⟨e, n, _, _, _, _, _, _, _, _, _, _, h, _⟩ := this
    have hm : ((-1000000 : ℝ) + ([sampleElectrons].map SpecieCfg.number_macro).sum) = 0 := by
      simp [sampleElectrons]
    rw [hm] at h
    norm_num at h

/-- **C36** is violated for negative input: with a negative electron density both derived lengths are NaN, every
comparison with them is false, and any grid and system size is accepted with any time step up to the light
crossing time of a cell. -/
theorem C36_negative_violated (mem : ℝ) (G : Geom) (dt : ℝ) (n T : ℝ) (hn : n < 0) (hT : 0 < T)
    (h1 : dt ≤ G.dr / LIGHT_SPEED) (h2 : dt ≤ G.dz / LIGHT_SPEED) :
    checkConfig mem G [⟨"electrons", 0, n, n, T⟩] dt = some () := by
  have e1 : (n + n) / 2 = n := by ring
  have hel : SpecieCfg.isElectrons ⟨"electrons", 0, n, n, T⟩ = true := by simp [SpecieCfg.isElectrons]
  have hw : sqrtNan (n * EL_CHARGE * EL_CHARGE / (EL_MASS * EPSILON0)) = none := by
    unfold sqrtNan
    refine if_pos (div_neg_of_neg_of_pos ?_ (mul_pos EL_MASS_pos EPSILON0_pos))
    exact mul_neg_of_neg_of_pos (mul_neg_of_neg_of_pos hn EL_CHARGE_pos) EL_CHARGE_pos
  have hD : sqrtNan (T / n) = none := by
    unfold sqrtNan; exact if_pos (div_neg_of_pos_of_neg hT hn)
  have hm : ∀ c : Checker, (checkMacroNumber G c).map (fun _ => ()) = some () := by
    intro c; unfold checkMacroNumber; split_ifs <;> rfl
  unfold checkConfig mkChecker
  simp only [checkerLoop, hel, if_true, e1]
  rw [if_neg (by simp [hn.ne, hT.ne']), Option.bind_some, hw, hD]
  simp only [checkTimeStep, checkGridSize, checkSystemSize, hm, gtNan, ltNan, minNan, Option.map_none]
  simp [not_lt.2 h1, not_lt.2 h2]

/-- **C36** (the warning about macroparticles) The last check never stops the run. It reports a shortage exactly
when the macroparticles of all species, on top of what was in memory, are fewer than ten times the square of the
radius of the system in metres. -/
theorem C36_warning (mem : ℝ) (G : Geom) (species : List SpecieCfg) (c : Checker)
    (h : mkChecker mem species = some c) : ∃ enough, checkMacroNumber G c = some enough ∧
      (enough = false ↔ mem + (species.map SpecieCfg.number_macro).sum < 10 * G.r_size ^ 2) := by
  have hc : c.number_macro = mem + (species.map SpecieCfg.number_macro).sum := by
    unfold mkChecker at h
    rw [checkerLoop_spec] at h
    simp only at h
    split_ifs at h
    rw [← Option.some.inj h]
  have e : G.r_size * G.r_size * 10 = 10 * G.r_size ^ 2 := by ring
  unfold checkMacroNumber
  rw [e, hc]
  by_cases hw : 10 * G.r_size ^ 2 > mem + (species.map SpecieCfg.number_macro).sum
  · exact ⟨false, if_pos hw, by simpa using hw⟩
  · exact ⟨true, if_neg hw, by simpa using hw⟩

theorem sample_checker (mem : ℝ) : ∃ c, mkChecker mem [sampleElectrons] = some c := by
  have hn : EL_MASS * EPSILON0 / EL_CHARGE ^ 2 ≠ 0 :=
    (div_pos (mul_pos EL_MASS_pos EPSILON0_pos) (pow_pos EL_CHARGE_pos 2)).ne'
  unfold mkChecker
  rw [checkerLoop_spec]
  have : lastElectrons [sampleElectrons] = some sampleElectrons := by
    simp [lastElectrons, SpecieCfg.isElectrons, sampleElectrons]
  simp only [this]
  rw [if_neg]
  · exact ⟨_, rfl⟩
  · have hm : (sampleElectrons.left_density + sampleElectrons.right_density) / 2
      = EL_MASS * EPSILON0 / EL_CHARGE ^ 2 := by simp only [sampleElectrons]; ring
    rw [hm, not_or]
    exact ⟨hn, hn⟩

/-- A million macroparticles are too few for a radius of a kilometre, and enough for one of a hundred metres. -/
example : (∃ c, mkChecker 0 [sampleElectrons] = some c ∧
      checkMacroNumber ⟨1000, 1, 11, 11, 100, 1⟩ c = some false) ∧
    ∃ c, mkChecker 0 [sampleElectrons] = some c ∧ checkMacroNumber ⟨100, 1, 11, 11, 10, 1⟩ c = some true := by
  obtain ⟨c, hc⟩ := sample_checker 0
  refine ⟨⟨c, hc, ?_⟩, ⟨c, hc, ?_⟩⟩
  · obtain ⟨b, hb, h⟩ := C36_warning 0 ⟨1000, 1, 11, 11, 100, 1⟩ _ c hc
    rw [hb, h.2 (by norm_num [sampleElectrons])]
  · obtain ⟨b, hb, h⟩ := C36_warning 0 ⟨100, 1, 11, 11, 10, 1⟩ _ c hc
    rw [hb]
    rcases b with _ | _
    · have := h.1 rfl
      norm_num [sampleElectrons] at this
    · rfl

/-- **C36** (the warning) is violated as a statement about cells: the bound is a length squared and does not
know the grid. However many cells per macroparticle there are, a system with a radius of ten centimetres gives
no warning. -/
theorem C36_warning_violated (ratio : ℕ) : ∃ (G : Geom) (c : Checker), G.Valid ∧
    mkChecker 0 [sampleElectrons] = some c ∧ checkMacroNumber G c = some true ∧
    (ratio : ℝ) * ([sampleElectrons].map SpecieCfg.number_macro).sum < ((G.nr - 1) * (G.nz - 1) : ℝ) := by
  obtain ⟨c, hc⟩ := sample_checker 0
  obtain ⟨n, hn⟩ : ∃ n : ℕ, n = 1000000 * ratio + 2 := ⟨_, rfl⟩
  have hn' : (0 : ℝ) < (n : ℝ) := by exact_mod_cast (by omega : 0 < n)
  have hs : (1 : ℝ) / 10 = 1 / 10 / n * (((n + 1 : ℕ) : ℝ) - 1) := by push_cast; field_simp; ring
  refine ⟨⟨1 / 10, 1 / 10, n + 1, n + 1, 1 / 10 / n, 1 / 10 / n⟩, c,
    ⟨by change 2 ≤ n + 1; omega, by change 2 ≤ n + 1; omega, by positivity, by positivity, hs, hs⟩, hc, ?_, ?_⟩
  · obtain ⟨b, hb, h⟩ := C36_warning 0 ⟨1 / 10, 1 / 10, n + 1, n + 1, 1 / 10 / n, 1 / 10 / n⟩ _ c hc
    rw [hb]
    rcases b with _ | _
    · have := h.1 rfl
      norm_num [sampleElectrons] at this
    · rfl
  · simp only [List.map_cons, List.map_nil, List.sum_cons, List.sum_nil, sampleElectrons]
    have : 1000000 * ratio < n * n := by nlinarith
    have h2 : ((1000000 * ratio : ℕ) : ℝ) < ((n * n : ℕ) : ℝ) := by exact_mod_cast this
    push_cast at h2 ⊢
    linarith

end Verif
