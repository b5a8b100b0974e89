import Verif.ProgOutputProps
import Verif.AtRest
import Verif.PyParams

/-!
# The time of a record (C105)

The first record has the number 0 and the tools write the time 0 over it, but it is made after the first iteration.
-/

namespace Verif

/-- a macroparticle at radius 1 that flies along the axis -/
noncomputable def flyer : Particle := ⟨true, ⟨1, 0, 1⟩, ⟨1, 0, 1⟩, ⟨0, 0, 10 ^ 8⟩, 1, 1, 0, 1⟩

theorem flyer_region : InRegion demoGeom flyer.pos.c0 flyer.pos.c2 := by
  refine ⟨?_, ?_, ?_, ?_⟩ <;> norm_num [flyer, demoGeom]

theorem flyer_ready : Ready demoGeom flyer := fun _ =>
  ⟨flyer_region, rfl, rfl, by norm_num [flyer], by norm_num [flyer, speedSq, LIGHT_SPEED]⟩

/-- the push of the first iteration, when there are no fields -/
theorem flyer_push {F : Fields} {mode : PusherMode} {g : Bool} {dt : ℝ} {q : Particle}
    (hE : valE demoGeom F flyer.pos.c0 flyer.pos.c2 = V3.zero) (hH : valH demoGeom F flyer.pos.c0 flyer.pos.c2 = V3.zero)
    (h : stepVSingle demoGeom F mode g dt flyer = some q) :
    q.alive = true ∧ q.pos = ⟨1, 0, 1 + 10 ^ 8 * (dt / 2)⟩ ∧ q.vel = ⟨0, 0, 10 ^ 8⟩ := by
  unfold stepVSingle at h
  rw [hE, hH, if_pos (show flyer.alive = true from rfl), C20_free_streaming _ _ _ _ _ (by norm_num [flyer])
    _ (by norm_num [flyer, speedSq, LIGHT_SPEED])
    (by
      refine ⟨Or.inl rfl, Or.inl rfl, Or.inr ?_⟩
      unfold MNZL flyer
      rw [abs_of_nonneg] <;> norm_num), Option.bind_some] at h
  unfold backPosition halfStep dumpOld at h
  simp [flyer] at h
  subst h
  exact ⟨rfl, rfl, rfl⟩

theorem reflection_inside {G : Geom} {p : Particle} (h : InRegion G p.pos.c0 p.pos.c2) : reflection G p = p := by
  obtain ⟨h1, h2, h3, h4⟩ := h
  unfold reflection reflectLow
  simp only [gt_iff_lt, if_neg (not_lt.2 h1), if_neg (not_lt.2 h2), if_neg (not_lt.2 h3), if_neg (not_lt.2 h4)]

/-- the rest of the first iteration -/
theorem flyer_move {dt : ℝ} (hdt : 0 < dt) (hdt' : 10 ^ 8 * dt ≤ 1) {p q : Particle} (ha : p.alive = true)
    (hp : p.pos = ⟨1, 0, 1 + 10 ^ 8 * (dt / 2)⟩) (hv : p.vel = ⟨0, 0, 10 ^ 8⟩)
    (h : moveHalfReflectSingle false demoGeom dt p = some q) : q.pos = ⟨1, 0, 1 + 10 ^ 8 * dt⟩ := by
  unfold moveHalfReflectSingle at h
  rw [if_pos ha] at h
  have e : (halfStep dt p).pos = ⟨1, 0, 1 + 10 ^ 8 * dt⟩ := by
    unfold halfStep
    simp only [hp, hv]
    ext <;> dsimp only <;> ring
  have er : reflectionOf false demoGeom (halfStep dt p) = halfStep dt p := by
    unfold reflectionOf
    rw [if_neg (by decide), reflection_inside]
    rw [e]
    refine ⟨?_, ?_, ?_, ?_⟩ <;> norm_num [demoGeom] <;> linarith
  rw [er] at h
  unfold backPosition at h
  simp only [e] at h
  norm_num at h
  rw [← h]
  norm_num

theorem no_bunches {G : Geom} {mode : PusherMode} {P : BeamSetup} {tbl : ℤ → ℤ → Option ℝ} {t0 dt : ℝ} {plasma : List Species}
    (hb : P.number_bunches = 0) {n : ℕ} {s : ProgState} (h : ProgRun G mode P tbl t0 dt plasma n s) : s.beam.bunches = [] := by
  have hr := progRun_beamRun h
  have h1 := beamRun_current_le hr
  have h2 := congrArg List.length (beamRun_numbers hr)
  simp only [List.length_map, List.length_range] at h2
  exact List.eq_nil_of_length_eq_zero (by omega)

theorem flyer_first {mode : PusherMode} {P : BeamSetup} (hb : P.number_bunches = 0) {tbl : ℤ → ℤ → Option ℝ} {t0 dt : ℝ}
    (hdt : 0 < dt) (hdt' : 10 ^ 8 * dt ≤ 1) {s s' : ProgState}
    (h0 : ProgRun demoGeom mode P tbl t0 dt [⟨false, [flyer]⟩] 0 s) (h1 : ProgRun demoGeom mode P tbl t0 dt [⟨false, [flyer]⟩] 1 s')
    (h : ProgStep demoGeom mode P t0 dt s s') :
    ∃ q : Particle, s'.plasma = [⟨false, [q]⟩] ∧ q.pos = ⟨1, 0, 1 + 10 ^ 8 * dt⟩ := by
  have hs' := no_bunches hb h1
  obtain ⟨b, -, hc, -, -, hbb⟩ := h
  have hbn : b.bunches = [] := by
    rw [hs'] at hbb
    exact List.map_eq_nil_iff.1 hbb.symm
  have hpl : s.plasma = [⟨false, [flyer]⟩] ∧ ∃ m1, RegionRun (Alloc demoGeom) (setupRegion demoGeom) (fun _ => none) m1 ∧
      RegionRun (Alloc demoGeom) (pmlRegion demoGeom tbl) m1 s.mem := by
    cases h0 with
    | start m1 m0 a1 a0 => exact ⟨rfl, m1, a1, a0⟩
  obtain ⟨hpl, m1, a1, a0⟩ := hpl
  have hfree := started_free demoGeom_valid ⟨_, m1, a1, a0⟩
  unfold partList at hc
  rw [hpl, hbn, hs'] at hc
  simp only [List.map_nil, List.append_nil] at hc
  obtain ⟨n1, n2, n3, S1, r1, r2, r3, r4, -⟩ := hc
  obtain ⟨vE, vH⟩ := val_noFields demoGeom_valid (by norm_num [demoGeom]) (by norm_num [demoGeom]) dt hfree r1 r2 flyer_region
  cases r3 with
  | cons hx ht =>
    cases ht
    obtain ⟨hx1, hx2⟩ := hx
    rename_i s1
    obtain ⟨out, hout⟩ : ∃ out, out = s'.plasma := ⟨_, rfl⟩
    rw [← hout] at r4 ⊢
    cases r4 with
    | cons hf hn =>
      cases hn
      obtain ⟨la, lc, ma, moved, -, -, h3, -, -, rfl⟩ := hf
      obtain ⟨bb, l⟩ := s1
      simp only at hx1 hx2
      subst hx1
      cases hx2 with
      | cons hp hl =>
        cases hl
        obtain ⟨-, g, hg⟩ := hp
        simp only at h3
        cases h3 with
        | cons hm hl =>
          cases hl
          obtain ⟨c1, c2, c3⟩ := flyer_push vE vH hg
          refine ⟨_, rfl, ?_⟩
          rw [(backV_props _).2.2.2]
          exact flyer_move hdt hdt' c1 c2 c3 hm

/-- no bunches -/
noncomputable def noBeam : BeamSetup :=
  { number := 1, number_bunches := 0, velocity := 1, duration := 1, hole_duration := 1, charge := 1,
    mass := 1, radius := 1, density := 1 }

/-- the macroparticles of the whole domain, in every iteration -/
def timeProbe : ProbeDecl := ⟨.mpframe, ['i', 'o', 'n', 's'], noneText, 0, 0, 3, 4, 1⟩

/-- The time that the tools write over a record is not the time of the state in it. -/
theorem C105_time_violated : ∃ (G : Geom) (P : BeamSetup) (dt : ℝ) (x : Particle),
    P.Usable G ∧ Ready G x ∧ (∀ par : PyParams, par.step_interval = dt → timeByFrame par 0 timeProbe.schedule = 0) ∧
    (∃ s st, ProgOut G .vay P (fun _ _ => none) 0 dt [⟨false, [x]⟩] [['i', 'o', 'n', 's']] ['b'] 1 ['o'] [timeProbe]
      (fun _ => none) 1 s st) ∧
    ∀ s st, ProgOut G .vay P (fun _ _ => none) 0 dt [⟨false, [x]⟩] [['i', 'o', 'n', 's']] ['b'] 1 ['o'] [timeProbe]
      (fun _ => none) 1 s st →
      ∃ z, getMpframe st.2 ['o'] ['i', 'o', 'n', 's'] 1 0 0 3 4 2 0 = some [z] ∧
        |z - (x.pos.c2 + x.vel.c2 * dt)| ≤ 1 / 10 ^ 5 ∧ z ≠ fmt6 x.pos.c2 := by
  have hdr : LIGHT_SPEED * (1 / 10 ^ 9) ≤ demoGeom.dr := by norm_num [demoGeom, LIGHT_SPEED]
  have hdz : LIGHT_SPEED * (1 / 10 ^ 9) ≤ demoGeom.dz := by norm_num [demoGeom, LIGHT_SPEED]
  have hP : noBeam.Usable demoGeom := by
    constructor <;> norm_num [noBeam, demoGeom, LIGHT_SPEED]
  have hready : ∀ p ∈ parts [⟨false, [flyer]⟩], Ready demoGeom p := by
    intro p hp
    obtain rfl : p = flyer := by simpa [parts] using hp
    exact flyer_ready
  have hinside : ∀ p ∈ parts [⟨false, [flyer]⟩], Inside demoGeom p := by
    intro p hp ha
    obtain ⟨⟨a1, a2, a3, a4⟩, b1, -, b3, b4⟩ := hready p hp ha
    exact ⟨⟨a1, by linarith [demoGeom_valid.dr_pos], a3, a4⟩, b1, b3, b4⟩
  have husable : ∀ p ∈ [timeProbe], Verif.Usable demoGeom ['o'] 3 p := by
    intro p hp
    obtain rfl := List.mem_singleton.1 hp
    refine ⟨by norm_num [timeProbe], ?_, by decide⟩
    intro kd hkd
    cases hkd
  have hlive : LivePlasma [⟨false, [flyer]⟩] := by
    intro s hs
    obtain rfl := List.mem_singleton.1 hs
    refine ⟨rfl, fun p hp => ?_⟩
    obtain rfl := List.mem_singleton.1 hp
    rfl
  refine ⟨demoGeom, noBeam, 1 / 10 ^ 9, flyer, hP, flyer_ready, fun par _ => by simp [timeByFrame], ?_, ?_⟩
  · obtain ⟨s, hs⟩ := (C78_single_bunch_partial demoGeom demoGeom_valid (by norm_num [demoGeom]) (by norm_num [demoGeom]) .vay
      (Or.inr rfl) 0 (1 / 10 ^ 9) (by norm_num) hdr hdz (fun _ _ => none) _ hP (by norm_num [noBeam]) _ hready).2 1
    obtain ⟨st, hst⟩ := (C105_output_partial demoGeom demoGeom_valid (by norm_num [demoGeom]) (by norm_num [demoGeom]) .vay
      (Or.inr rfl) _ hP (fun _ _ => none) 0 (1 / 10 ^ 9) (by norm_num) hdr hdz _ hinside [['i', 'o', 'n', 's']] ['b'] 1
      (by norm_num) ['o'] [timeProbe] (fun _ => none) 3 (by norm_num) husable 1 (by norm_num) s).1 hs
    exact ⟨s, st, hst⟩
  · intro s st h
    obtain ⟨hist, e, hh, hf⟩ := C105_particles_partial demoGeom demoGeom_valid (by norm_num [demoGeom]) (by norm_num [demoGeom])
      (by norm_num [demoGeom]) (by norm_num [demoGeom]) .vay (Or.inr rfl) _ hP (fun _ _ => none)
      (1 / 10 ^ 9) (by norm_num) hdr hdz _ hlive hinside _ (by simp) rfl _ 1 (by norm_num) ['o'] [timeProbe] _
      (by unfold Separate; decide) (fun _ _ _ => rfl) 1 s st h
    obtain ⟨sp, h1, -, h3⟩ := hf _ (List.mem_singleton.2 rfl) rfl rfl (by decide) (by decide) (by decide)
      (by decide) (by norm_num [timeProbe]) 0 rfl 0 (by norm_num)
    have hs : ProgStep demoGeom .vay noBeam 0 (1 / 10 ^ 9) (hist 0) (hist 1) := by
      simpa using hh.step 0 (by norm_num)
    obtain ⟨q, hq, hp⟩ := flyer_first rfl (by norm_num) (by norm_num) (hh.run 0 (by norm_num)) (hh.run 1 le_rfl) hs
    have h1' : (hist 1).plasma[0]? = some sp := by simpa using h1
    rw [hq] at h1'
    obtain rfl : (⟨false, [q]⟩ : Species) = sp := by simpa using h1'
    have hwin : InMpWindow demoGeom timeProbe q := by
      unfold InMpWindow
      rw [hp]
      norm_num [timeProbe, demoGeom]
    have hlist : (open Classical in [q].filter fun x => InMpWindow demoGeom timeProbe x) = [q] := by
      simp [hwin]
    simp only at h3
    rw [hlist] at h3
    have := h3 (by simp [timeProbe]) 2 (fun x => x.pos.c2) rfl
    have h6 := C32_six_digits (1 + 10 ^ 8 * (1 / 10 ^ 9))
    have h7 := C32_six_digits 1
    norm_num [abs_le] at h6 h7
    refine ⟨fmt6 q.pos.c2, this, ?_, ?_⟩
    · rw [hp]
      norm_num [abs_le, flyer]
      constructor <;> linarith [h6.1, h6.2]
    · rw [hp]
      intro he
      norm_num [flyer] at he
      linarith [h6.1, h6.2, h7.1, h7.2]

end Verif
