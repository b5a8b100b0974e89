import Verif.PlasmaProps

/-!
# C79: cold species
-/

namespace Verif

/-- Usable settings of a species below 0.1 eV -/
structure SpecieSettings.Cold (sp : SpecieSettings) : Prop where
  number : 1 ≤ sp.number_macro
  mass : 1 ≤ sp.mass
  left : 0 < sp.left_density
  right : 0 < sp.right_density
  low : 0 ≤ sp.temperature
  high : sp.temperature < 0.1

theorem classic_range {T u e : ℝ} (hT : 0 ≤ T) (hu : UniformDraw u) (h : sampleClassic T u = some e) :
    0 ≤ e ∧ e ≤ 20.7 * T := by
  have hu1 : u < 1 := by have := hu.2; norm_num at this ⊢; linarith
  have hne : u ≠ Real.exp (-Real.exp 2) := by
    intro he
    rw [he, (C60_table_end_violated T).2.2] at h
    cases h
  obtain ⟨x, hx, h0, h1⟩ := C60_classic_partial T u hT hu.1 hu1 hne
  rw [h] at hx
  obtain rfl := Option.some.inj hx
  exact ⟨h0, h1⟩

theorem cold_sample {T : ℝ} (h : T < 0.1) {us : List (ℝ × ℝ)} {e : Option ℝ} (hs : Sample T us e) :
    ∃ u v x, us = [(u, v)] ∧ sampleClassic T u = some x ∧ e = some x := by
  unfold Sample at hs
  rwa [if_pos h] at hs

/-- A macroparticle of a cold species -/
theorem cold_particle_good {G : Geom} (hG : G.Valid) (hnr : 3 ≤ G.nr) (hnz : 3 ≤ G.nz) {sp : SpecieSettings}
    (hs : sp.Cold) {ps : List Particle} (h : InitSpecies G sp (some ps)) :
    ∀ p ∈ ps, p.alive = true ∧ InRegion G p.pos.c0 p.pos.c2 ∧ p.pos.c1 = 0 ∧ 0 < p.mass ∧
      speedSq p.vel < LIGHT_SPEED ^ 2 := by
  cases h with
  | ok draws hd _ h =>
    intro p hp
    obtain ⟨l, hl, us, e, rnd, h1, h2, h3, h4, h5, h6, h7, h8, h9⟩ := forall2_right h hp
    have hM : 0 < EL_MASS := by norm_num [EL_MASS]
    have hmass : (1 : ℝ) ≤ sp.mass := by exact_mod_cast hs.mass
    obtain ⟨g1, g2, g3⟩ := loaded_good hG hnr hnz (by positivity) hs.left hs.right (codeDraws_range hd) hl
    obtain ⟨u, v, x, rfl, hx, he⟩ := cold_sample hs.high h2
    obtain rfl := Option.some.inj he
    have hr := classic_range hs.low (h1 (u, v) (by simp)).1 hx
    have hhi := hs.high
    have hlo := hs.low
    rw [h6, h7, h9]
    exact ⟨h5, g1, g2, g3, thermal_slow (T := sp.temperature) (by nlinarith) h3 (by linarith [hr.2]) (by norm_num at hhi ⊢; linarith) h4⟩

theorem cold_species {G : Geom} {sp : SpecieSettings} (hs : sp.Cold) :
    InitSpecies G sp none ∧ ∃ ps, InitSpecies G sp (some ps) := by
  have hn : 0 < sp.number := Nat.le_floor (by simpa using hs.number)
  constructor
  · refine .tables hn ⟨Real.exp (-Real.exp 2), ⟨(Real.exp_pos _).le, ?_⟩, ?_⟩
    · have h1 : Real.exp (-Real.exp 2) ≤ Real.exp (-1) :=
        Real.exp_le_exp.2 (neg_le_neg (Real.one_le_exp (by norm_num)))
      have h2 := Real.exp_neg_one_lt_d9
      norm_num at h2 ⊢
      linarith
    · rw [if_pos hs.high]
      exact (C60_table_end_violated sp.temperature).2.2
  · obtain ⟨draws, hd⟩ := codeDraws_exists sp.number
    have h0 : UniformDraw 0 := ⟨le_rfl, by norm_num⟩
    have he : Sample sp.temperature [(0, 0)] (some (sp.temperature * (3 * Real.sqrt Real.pi / 4 * 0))) := by
      unfold Sample
      rw [if_pos hs.high]
      exact ⟨0, 0, _, rfl, by unfold sampleClassic; rw [if_pos rfl], rfl⟩
    obtain ⟨L, hL⟩ : ∃ L, L = loadCylindrical G (sp.charge * EL_CHARGE) (sp.mass * EL_MASS)
      sp.left_density sp.right_density 0 draws := ⟨_, rfl⟩
    refine ⟨L.map fun l => ⟨true, l.pos, ⟨0, 0, 0⟩, thermalVelocity (sp.mass * EL_MASS)
      (sp.temperature * (3 * Real.sqrt Real.pi / 4 * 0)) ⟨0, 0, 0⟩, l.charge, l.mass, 0, 0⟩, .ok draws hd _ ?_⟩
    rw [← hL, List.forall₂_map_right_iff, List.forall₂_same]
    intro l _
    exact ⟨_, _, ⟨0, 0, 0⟩, by simpa using h0, he, by simp, ⟨by simp, by simp, by simp⟩, rfl, rfl, rfl, rfl, rfl⟩

/-- **C79** With cold species in the plasma: the loading can go wrong if and only if there is a species below 0.1 eV. If it does not
go wrong, all macroparticles are alive, off the walls by half a cell, have mass and are slower than light. -/
theorem C79_cold_partial (G : Geom) (hG : G.Valid) (hnr : 3 ≤ G.nr) (hnz : 3 ≤ G.nz)
    (sps : List SpecieSettings) (hs : ∀ sp ∈ sps, sp.Usable ∨ sp.Cold) :
    (InitPlasma G sps none ↔ ∃ sp ∈ sps, sp.temperature < 0.1) ∧ (∃ S, InitPlasma G sps (some S)) ∧
    ∀ S, InitPlasma G sps (some S) → S.length = sps.length ∧
      ∀ p ∈ parts S, p.alive = true ∧ (G.dr / 2 ≤ p.pos.c0 ∧ p.pos.c0 ≤ G.r_size - G.dr / 2 ∧
        G.dz / 2 ≤ p.pos.c2 ∧ p.pos.c2 ≤ G.z_size - G.dz / 2) ∧ p.pos.c1 = 0 ∧ 0 < p.mass ∧
        speedSq p.vel < LIGHT_SPEED ^ 2 := by
  refine ⟨⟨?_, ?_⟩, ?_, ?_⟩
  · rintro (⟨-, sp, hsp, h⟩ | ⟨S, h, -⟩)
    · rcases hs sp hsp with hu | hc
      · exact absurd h (species_total hu).1
      · exact ⟨sp, hsp, hc.high⟩
    · cases h
  · rintro ⟨sp, hsp, h⟩
    rcases hs sp hsp with hu | hc
    · exact absurd hu.low (not_le.2 h)
    · exact Or.inl ⟨rfl, sp, hsp, (cold_species hc).1⟩
  · suffices h : ∃ S : List Species,
        List.Forall₂ (fun sp s => s.bunch = false ∧ InitSpecies G sp (some s.ps)) sps S by
      obtain ⟨S, h⟩ := h
      exact ⟨S, Or.inr ⟨S, rfl, h⟩⟩
    induction sps with
    | nil => exact ⟨[], .nil⟩
    | cons sp sps ih =>
      obtain ⟨S, h⟩ := ih fun x hx => hs x (by simp [hx])
      obtain ⟨ps, hps⟩ : ∃ ps, InitSpecies G sp (some ps) := by
        rcases hs sp (by simp) with hu | hc
        · exact (species_total hu).2
        · exact (cold_species hc).2
      exact ⟨⟨false, ps⟩ :: S, .cons ⟨rfl, hps⟩ h⟩
  · rintro S (⟨h, -⟩ | ⟨S', e, h⟩)
    · cases h
    · obtain rfl := Option.some.inj e
      refine ⟨h.length_eq.symm, fun p hp => ?_⟩
      obtain ⟨s, hsm, hp⟩ := List.mem_flatMap.1 hp
      obtain ⟨sp, hsp, -, hi⟩ := forall2_right h hsm
      rcases hs sp hsp with hu | hc
      · exact particle_good hG hnr hnz hu hi p hp
      · exact cold_particle_good hG hnr hnz hc hi p hp

/-- Not vacuous: hot electrons and cold ions. -/
example : ∃ S, InitPlasma demoGeom [⟨"electrons".toList, -1, 1, 1000, 1, 2, 1⟩, ⟨"ions".toList, 1, 1836, 1000, 1, 2, 0.03⟩] (some S) := by
  refine (C79_cold_partial demoGeom demoGeom_valid (by norm_num [demoGeom]) (by norm_num [demoGeom]) _ ?_).2.1
  intro sp hsp
  simp only [List.mem_cons, List.not_mem_nil, or_false] at hsp
  rcases hsp with rfl | rfl
  · exact Or.inl ⟨by norm_num, by norm_num, by norm_num, by norm_num, by norm_num, by norm_num, good_one⟩
  · exact Or.inr ⟨by norm_num, by norm_num, by norm_num, by norm_num, by norm_num, by norm_num⟩

end Verif
