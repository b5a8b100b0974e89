import Verif.Unset

/-!
# A run with azimuthal motion that uses a value that was never set (C76)
-/

namespace Verif

/-- **C76, C77** Beyond the last half cell the interpolation of the electric field uses an element
that is never set. -/
theorem C77_interpolation_violated (G : Geom) (hG : G.Valid) (m : Mem Loc) (hm : OnlyNodesSet G m)
    (r z : ℝ) (hr : G.r_size - G.dr / 2 < r) (num : ℕ → ℕ) (mp : Mem PLoc)
    (hmp : ∀ l, mp (.fld l) = m l) : (getE G r z).eval (PAlloc G num) mp = none := by
  have key : (gatherHalf G .er 0 r z).eval (PAlloc G num) mp = none := by
    have h2 := (CELL_NUMBER_spec (x := r - 1 / 2 * G.dr) hG.dr_pos).2
    have hd := hG.dr_pos
    rw [hG.r_size_eq] at hr
    have h3 : (G.nr : ℤ) - 2 ≤ CELL_NUMBER (r - 1 / 2 * G.dr) G.dr := by
      have : ((G.nr : ℝ) - 2) < (CELL_NUMBER (r - 1 / 2 * G.dr) G.dr : ℝ) + 1 := by
        by_contra hcon
        push Not at hcon
        nlinarith
      have : (G.nr : ℤ) - 2 < CELL_NUMBER (r - 1 / 2 * G.dr) G.dr + 1 := by exact_mod_cast this
      omega
    have h4 : (G.nr : ℤ) - 1 ≤ clamp0 (CELL_NUMBER (r - 1 / 2 * G.dr) G.dr) + 1 := by
      unfold clamp0; split_ifs <;> omega
    have h5 : ∀ k, mp (.fld ⟨.er, clamp0 (CELL_NUMBER (r - 1 / 2 * G.dr) G.dr) + 1, k⟩) = none := by
      intro k
      rw [hmp, ← Option.not_isSome_iff_eq_none]
      intro hs
      rcases hm _ hs with hI | hI
      · obtain ⟨-, hi, -⟩ := hI
        simp only [Arr.initRows] at hi
        omega
      · simp [Arr.isCurrent] at hI
    unfold gatherHalf gather4
    dsimp only
    split_ifs
    · simp only [abort, Prog.rd, Prog.bind_eq, Prog.bind_load, Prog.bind_ret, Prog.pure_eq, Prog.eval,
        PAlloc, if_false]
      cases mp .exit <;> rfl
    · simp only [Prog.rd, Prog.bind_eq, Prog.bind_load, Prog.bind_ret, Prog.pure_eq, Prog.eval, h5]
      split
      · rfl
      · split_ifs <;> rfl
  unfold getE
  rw [Prog.bind_eq, Prog.eval_bind, key]
  rfl

/-- a particle at the outer edge of the region that moves around the axis at 0.8 c -/
noncomputable def spinner : Particle :=
  ⟨true, ⟨3 / 2, 0, 1⟩, ⟨0, 0, 0⟩, ⟨0, 240000000, 0⟩, 1, 1, 0, 0⟩

/-- the time light needs for a cell -/
noncomputable def dtLight : ℝ := 1 / 300000000

/-- radius after the first half of the step -/
noncomputable def spinT : ℝ := Real.sqrt (3 / 2 * (3 / 2) + 2 / 5 * (2 / 5))
/-- radius after the second half of the step -/
noncomputable def spinR : ℝ := Real.sqrt ((3 - spinT) * (3 - spinT) + 2 / 5 * (2 / 5))

theorem spinT_bounds : 1552 / 1000 < spinT ∧ spinT < 1553 / 1000 := by
  unfold spinT
  constructor
  · apply Real.lt_sqrt_of_sq_lt; norm_num
  · rw [Real.sqrt_lt' (by norm_num)]; norm_num

theorem spinR_bounds : 3 / 2 < spinR ∧ spinR < 151 / 100 := by
  obtain ⟨h1, h2⟩ := spinT_bounds
  unfold spinR
  constructor
  · apply Real.lt_sqrt_of_sq_lt; nlinarith
  · rw [Real.sqrt_lt' (by norm_num)]; nlinarith

noncomputable def spinner1 : Particle :=
  { spinner with pos := ⟨spinT, 0, 1⟩, posOld := ⟨3 / 2, 0, 1⟩, sinTheta := 2 / 5 / spinT }

theorem spinner_region : InRegion demoGeom spinner.pos.c0 spinner.pos.c2 := by
  refine ⟨?_, ?_, ?_, ?_⟩ <;> norm_num [spinner, demoGeom]

theorem spinner_flies {F : Fields} (h : Agree demoGeom F emptyFields) :
    StepVRel demoGeom F .borisRelativistic dtLight spinner spinner1 := by
  refine ⟨fun _ => spinner_region, true, ?_⟩
  obtain ⟨e1, e2⟩ := val_congr demoGeom_valid (by norm_num [demoGeom]) (by norm_num [demoGeom]) h
    spinner_region
  have hE : valE demoGeom emptyFields spinner.pos.c0 spinner.pos.c2 = V3.zero := by
    unfold valE valHalf valInt val4 V3.zero; simp [emptyFields]
  have hH : valH demoGeom emptyFields spinner.pos.c0 spinner.pos.c2 = V3.zero := by
    unfold valH valHalf valInt val4 V3.zero; simp [emptyFields]
  unfold stepVSingle
  rw [e1, e2, hE, hH, if_pos (show spinner.alive = true from rfl), C20_free_streaming]
  · rw [Option.bind_some]
    have a0 : (halfStep dtLight (dumpOld { spinner with vel := spinner.vel })).pos = ⟨3 / 2, 2 / 5, 1⟩ := by
      unfold halfStep dumpOld spinner dtLight
      norm_num
    have hT : spinT ≠ 0 := by have := spinT_bounds.1; linarith
    unfold backPosition
    dsimp only
    rw [a0]
    dsimp only
    rw [if_neg (show ¬ Real.sqrt (3 / 2 * (3 / 2) + 2 / 5 * (2 / 5)) = 0 from hT)]
    rfl
  · norm_num [spinner]
  · unfold speedSq LIGHT_SPEED; norm_num [spinner]
  · refine ⟨Or.inl rfl, Or.inr ?_, Or.inl rfl⟩
    unfold MNZL spinner; rw [abs_of_nonneg] <;> norm_num

theorem spinner_moves : ∃ q, moveHalfReflectSingle false demoGeom dtLight spinner1 = some q ∧
    q.alive = true ∧ q.pos = ⟨spinR, 0, 1⟩ ∧ q.posOld = ⟨3 / 2, 0, 1⟩ ∧ q.charge = 1 := by
  unfold moveHalfReflectSingle
  rw [if_pos (show spinner1.alive = true from rfl)]
  obtain ⟨e1, e2, e3, e4, e5, e6⟩ := reflection_fields demoGeom (halfStep dtLight spinner1)
  obtain ⟨t1, t2⟩ := spinT_bounds
  obtain ⟨r1, r2⟩ := spinR_bounds
  have p0 : (reflection demoGeom (halfStep dtLight spinner1)).pos = ⟨3 - spinT, 2 / 5, 1⟩ := by
    rw [e1]
    have a0 : (halfStep dtLight spinner1).pos = ⟨spinT, 2 / 5, 1⟩ := by
      unfold halfStep spinner1 spinner dtLight
      norm_num
    rw [a0]
    have m1 : mirrorX (demoGeom.dr / 2) (demoGeom.r_size - demoGeom.dr / 2) spinT = 3 - spinT := by
      unfold mirrorX demoGeom
      dsimp only
      split_ifs <;> linarith
    have m2 : mirrorX (demoGeom.dz / 2) (demoGeom.z_size - demoGeom.dz / 2) 1 = 1 := by
      unfold mirrorX demoGeom
      norm_num
    dsimp only
    rw [m1, m2]
  have hR : ¬ spinR = 0 := by linarith
  have er : reflectionOf false demoGeom (halfStep dtLight spinner1)
      = reflection demoGeom (halfStep dtLight spinner1) := by
    simp [reflectionOf]
  rw [er]
  unfold backPosition
  dsimp only
  rw [p0]
  dsimp only
  rw [if_neg (show ¬ Real.sqrt ((3 - spinT) * (3 - spinT) + 2 / 5 * (2 / 5)) = 0 from hR)]
  refine ⟨_, rfl, ?_, rfl, ?_, ?_⟩
  · show (reflection demoGeom (halfStep dtLight spinner1)).alive = true
    rw [e3]; rfl
  · show (reflection demoGeom (halfStep dtLight spinner1)).posOld = _
    rw [e4]; rfl
  · show (reflection demoGeom (halfStep dtLight spinner1)).charge = _
    rw [e5]; rfl

/-- **C76 (violated)** A simulation of one macroparticle with azimuthal velocity, inside the walls
and slower than light, with the relativistic pusher and a time step in which light crosses a cell:
after one cycle the macroparticle is in the last half cell, and the next cycle uses a value of the
radial electric field that was never set. -/
theorem C76_azimuthal_violated : ∃ (dt : ℝ) (p : Particle), 0 < dt ∧ LIGHT_SPEED * dt ≤ demoGeom.dr ∧
    LIGHT_SPEED * dt ≤ demoGeom.dz ∧ p.alive = true ∧ InRegion demoGeom p.pos.c0 p.pos.c2 ∧
    p.pos.c1 = 0 ∧ p.mass ≠ 0 ∧ speedSq p.vel < LIGHT_SPEED ^ 2 ∧
    ∃ m S, SimReaches demoGeom .borisRelativistic dt (fun _ _ => none) (fun _ S => S)
        [⟨false, [p]⟩] 1 m S ∧
      CycleFault demoGeom .borisRelativistic dt m S ∧
      ∃ q ∈ parts S, q.alive = true ∧ ∀ m1 m2, RegionRun (Alloc demoGeom) (hRegion demoGeom dt) m m1 →
        RegionRun (Alloc demoGeom) (resetJRegion demoGeom) m1 m2 → ∀ (num : ℕ → ℕ) (mp : Mem PLoc),
        (∀ l, mp (.fld l) = m2 l) →
        (getE demoGeom q.pos.c0 q.pos.c2).eval (PAlloc demoGeom num) mp = none := by
  have hG := demoGeom_valid
  refine ⟨dtLight, spinner, by norm_num [dtLight], by norm_num [dtLight, LIGHT_SPEED, demoGeom],
    by norm_num [dtLight, LIGHT_SPEED, demoGeom], rfl, spinner_region, rfl, by norm_num [spinner],
    by unfold speedSq LIGHT_SPEED; norm_num [spinner], ?_⟩
  obtain ⟨r1, r2⟩ := spinR_bounds
  obtain ⟨t1, t2⟩ := spinT_bounds
  -- set-up
  obtain ⟨x, s1, q1⟩ := setup_spec hG (fun _ => none)
  obtain ⟨y, s2, q2⟩ := pml_spec (fun _ _ => none) q1
  -- fields
  obtain ⟨n1, s3, q3⟩ := hRegion_spec hG dtLight q2
  obtain ⟨s4, q4⟩ := resetJ_spec hG q3
  have yinit : Initialised demoGeom y := fun l hl => by rw [q2 l hl]; rfl
  have hag : Agree demoGeom (fieldsOf (memWrite (wResetJ demoGeom) n1)) emptyFields := by
    intro a i k hl
    have := q4 ⟨a, i, k⟩ (Or.inl hl)
    simp only [fieldsOf, this, Option.getD_some]
    cases a <;> simp [Fields.at, Fields.write, wResetJ, hStep, emptyFields, alphaR, alphaPhi, alphaZ,
      setupFields] <;> split_ifs <;> rfl
  have j2 : JInit demoGeom (memWrite (wResetJ demoGeom) n1) :=
    after_reset_init hG dtLight yinit s3.sound.2.1 s4.sound.2.1
  obtain ⟨q, hq, qa, qp, qo, qc⟩ := spinner_moves
  -- currents
  have hoff : OffAxisWithinFarWalls demoGeom [spinner1] := by
    intro p hp _
    rw [List.mem_singleton.1 hp]
    refine ⟨?_, ?_, ?_⟩
    · show 0 < spinT; linarith
    · show spinT ≤ 2; linarith
    · show (1:ℝ) ≤ 3; norm_num
  obtain ⟨la, hla⟩ : ∃ la, azimuthalIncs demoGeom spinner1.charge spinner1.vel.c1 spinner1.pos.c0
      spinner1.pos.c2 = some la := by
    unfold azimuthalIncs
    have : ¬ (spinner1.pos.c0 = 0) := by show ¬ spinT = 0; linarith
    simp [this]
  have hac : azimuthalCalls demoGeom spinner1 = some (callsOf .jphi la) := by
    unfold azimuthalCalls
    rw [if_pos (show spinner1.alive = true from rfl), hla]; rfl
  have okz : ∀ c ∈ callsOf .jphi la, c.Ok demoGeom := by
    intro c hc
    obtain ⟨d, hd, rfl⟩ := List.mem_map.1 hc
    have := azimIncs_inGrid demoGeom hG [spinner1] hoff d (by
      simp only [List.flatMap_cons, List.flatMap_nil, List.append_nil, azimIncsOf]
      rw [if_pos (show spinner1.alive = true from rfl), hla]; exact hd)
    exact ⟨Or.inr (Or.inl rfl), this.1, this.2.1, this.2.2.1, this.2.2.2⟩
  obtain ⟨J, hJ, hin⟩ := C74_current_safe demoGeom hG dtLight 1 (rO := 3 / 2) (zO := 1) (rN := spinR)
    (zN := 1) ⟨by norm_num, by norm_num [demoGeom], by norm_num, by norm_num [demoGeom]⟩
    ⟨by linarith, by show spinR ≤ 2; linarith, by norm_num, by norm_num [demoGeom]⟩
    (by show |spinR - 3 / 2| < 1; rw [abs_lt]; constructor <;> linarith)
    (by show |(1:ℝ) - 1| < 1; norm_num)
  have hmc : moveCalls demoGeom dtLight q = some (callsOf .jr J.jr ++ callsOf .jz J.jz) := by
    unfold moveCalls
    rw [if_pos qa, qp, qo, qc, hJ]; rfl
  have okj : ∀ c ∈ callsOf .jr J.jr ++ callsOf .jz J.jz, c.Ok demoGeom := by
    intro c hc
    rcases List.mem_append.1 hc with hc | hc <;> obtain ⟨d, hd, rfl⟩ := List.mem_map.1 hc
    · obtain ⟨⟨g1, g2, g3, g4⟩, -⟩ := hin d (by simp [hd])
      exact ⟨Or.inl rfl, g1, g2, g3, g4⟩
    · obtain ⟨⟨g1, g2, g3, g4⟩, -⟩ := hin d (by simp [hd])
      exact ⟨Or.inr (Or.inr rfl), g1, g2, g3, g4⟩
  obtain ⟨ma, ia, ja⟩ := j2.incs okz
  obtain ⟨mc, ic, jc⟩ := ja.incs okj
  obtain ⟨m', s5, q5, -⟩ := eRegion_spec hG dtLight jc.1.rep
  have hcyc : Cycle demoGeom .borisRelativistic dtLight y [⟨false, [spinner]⟩] m'
      [⟨false, [backVelocitySingle q]⟩] := by
    refine ⟨n1, _, mc, [⟨false, [spinner1]⟩], s3.sound.2.1, s4.sound.2.1,
      .cons ⟨rfl, .cons (spinner_flies hag) .nil⟩ .nil, .cons (m1 := mc) ?_ (.nil _), s5.sound.2.1⟩
    refine ⟨callsOf .jphi la, callsOf .jr J.jr ++ callsOf .jz J.jz, ma, [q], ?_, ia, .cons hq .nil, ?_,
      ic, rfl⟩
    · simp [seqCalls, hac]
    · simp [seqCalls, hmc]
  have hreach : SimReaches demoGeom .borisRelativistic dtLight (fun _ _ => none) (fun _ S => S)
      [⟨false, [spinner]⟩] 1 m' [⟨false, [backVelocitySingle q]⟩] :=
    ⟨x, y, s1.sound.2.1, s2.sound.2.1, .step (.start _ _) hcyc⟩
  have hset := C77_only_nodes_set _ hG _ _ _ _ _ _ _ _ hreach
  obtain ⟨b1, b2, b3, b4⟩ := backV_props q
  have hbp : (backVelocitySingle q).pos = ⟨spinR, 0, 1⟩ := by rw [← qp]; first | exact b3 | exact b4
  refine ⟨m', _, hreach, ?_, backVelocitySingle q, by simp [parts], by rw [b1]; exact qa, ?_⟩
  · obtain ⟨n1', s3', q3'⟩ := hRegion_spec hG dtLight q5
    obtain ⟨s4', -⟩ := resetJ_spec hG q3'
    refine Or.inr ⟨_, s3'.sound.2.1, Or.inr ⟨_, s4'.sound.2.1, Or.inl ⟨backVelocitySingle q,
      by simp [parts], by rw [b1]; exact qa, Or.inl ?_⟩⟩⟩
    rintro ⟨-, h, -⟩
    rw [hbp] at h
    have : spinR ≤ 2 - 1 / 2 := h
    linarith
  · intro m1 m2 h1 h2 num mp hmp
    refine C77_interpolation_violated demoGeom hG m2 ?_ _ _ ?_ num mp hmp
    · exact (hset.region (hRegion_stays hG dtLight) h1).region (resetJ_stays demoGeom) h2
    · rw [hbp]
      show (2:ℝ) - 1 / 2 < spinR
      linarith

end Verif
