import Verif.ProgOutput

/-!
# Macroparticles in the output, and runs with output (C105)
-/

namespace Verif

/-! ## Plasma stays alive -/

theorem backPosition_alive {p q : Particle} (h : backPosition p = some q) : q.alive = p.alive := by
  unfold backPosition at h
  simp only at h
  split_ifs at h
  rw [Option.some.injEq] at h
  subst h
  rfl

theorem reflectLow_alive (G : Geom) (p : Particle) : (reflectLow G p).alive = p.alive := by
  unfold reflectLow
  simp only
  split_ifs <;> rfl

theorem reflection_alive (G : Geom) (p : Particle) : (reflection G p).alive = p.alive := by
  unfold reflection
  simp only
  rw [reflectLow_alive]
  split_ifs <;> rfl

theorem stepV_alive {G : Geom} {F : Fields} {mode : PusherMode} {g : Bool} {dt : ℝ} {p q : Particle}
    (h : stepVSingle G F mode g dt p = some q) : q.alive = p.alive := by
  unfold stepVSingle at h
  split_ifs at h
  · rw [Option.bind_eq_some_iff] at h
    obtain ⟨v, -, h⟩ := h
    rw [backPosition_alive h]
    rfl
  · rw [Option.some.injEq] at h
    rw [h]

theorem move_alive {G : Geom} {dt : ℝ} {p q : Particle} (h : moveHalfReflectSingle false G dt p = some q) :
    q.alive = p.alive := by
  unfold moveHalfReflectSingle at h
  split_ifs at h
  · rw [backPosition_alive h]
    unfold reflectionOf
    rw [if_neg (by decide), reflection_alive]
    rfl
  · rw [Option.some.injEq] at h
    rw [h]

/-- A cycle kills no macroparticle of the plasma. -/
def KeepsAlive (s s' : Species) : Prop :=
  s'.bunch = s.bunch ∧ (s.bunch = false → (∀ p ∈ s.ps, p.alive = true) → ∀ p ∈ s'.ps, p.alive = true)

theorem stepVAll_alive {G : Geom} {F : Fields} {mode : PusherMode} {dt : ℝ} {S S1 : List Species}
    (h : StepVAll G F mode dt S S1) : List.Forall₂ KeepsAlive S S1 := by
  refine List.Forall₂.imp ?_ h
  rintro s s1 ⟨h1, h2⟩
  refine ⟨h1, fun _ ha q hq => ?_⟩
  obtain ⟨p, hp, -, g, hg⟩ := forall2_right h2 hq
  rw [stepV_alive hg]
  exact ha p hp

theorem fullCurrent_alive {G : Geom} {dt : ℝ} {s s' : Species} {m m' : Mem Loc}
    (h : FullCurrent G dt s m s' m') : KeepsAlive s s' := by
  obtain ⟨la, lc, ma, moved, -, -, h3, -, -, rfl⟩ := h
  refine ⟨rfl, fun hb ha q hq => ?_⟩
  simp only [List.mem_map] at hq
  obtain ⟨r, hr, rfl⟩ := hq
  obtain ⟨p, hp, hpr⟩ := forall2_right h3 hr
  rw [hb] at hpr
  rw [(backV_props r).1, move_alive hpr]
  exact ha p hp

theorem fullCurrentAll_alive {G : Geom} {dt : ℝ} {S S' : List Species} {m m' : Mem Loc}
    (h : FullCurrentAll G dt S m S' m') : List.Forall₂ KeepsAlive S S' := by
  induction h with
  | nil => exact .nil
  | cons h _ ih => exact .cons (fullCurrent_alive h) ih

theorem cycle_alive {G : Geom} {mode : PusherMode} {dt : ℝ} {m m' : Mem Loc} {S S' : List Species}
    (h : Cycle G mode dt m S m' S') : List.Forall₂ KeepsAlive S S' := by
  obtain ⟨m1, m2, m3, S1, -, -, h3, h4, -⟩ := h
  refine forall2_comp ?_ (stepVAll_alive h3) (fullCurrentAll_alive h4)
  rintro s1 s2 s3 ⟨a1, a2⟩ ⟨b1, b2⟩
  exact ⟨b1.trans a1, fun hb ha => b2 (a1.trans hb) (a2 hb ha)⟩

theorem progStep_plasma {G : Geom} {mode : PusherMode} {P : BeamSetup} {t dt : ℝ} {s s' : ProgState}
    (h : ProgStep G mode P t dt s s') : List.Forall₂ KeepsAlive s.plasma s'.plasma := by
  obtain ⟨b, -, hc, hl, -⟩ := h
  have h1 := List.forall₂_take s.plasma.length (cycle_alive hc)
  unfold partList at h1
  rw [List.take_left' rfl, List.take_left' hl] at h1
  exact h1

/-- All species of the plasma are plasma, and all their macroparticles are alive. -/
def LivePlasma (S : List Species) : Prop := ∀ s ∈ S, s.bunch = false ∧ ∀ p ∈ s.ps, p.alive = true

theorem progRun_live {G : Geom} {mode : PusherMode} {P : BeamSetup} {tbl : ℤ → ℤ → Option ℝ} {t0 dt : ℝ} {plasma : List Species}
    (h0 : LivePlasma plasma) {n : ℕ} {s : ProgState} (h : ProgRun G mode P tbl t0 dt plasma n s) :
    LivePlasma s.plasma ∧ s.plasma.length = plasma.length := by
  induction h with
  | start => exact ⟨h0, rfl⟩
  | step n s s' _ hs ih =>
    have hk := progStep_plasma hs
    refine ⟨fun q hq => ?_, hk.length_eq.symm.trans ih.2⟩
    obtain ⟨p, hp, hpq⟩ := forall2_right hk hq
    exact ⟨hpq.1.trans (ih.1 p hp).1, hpq.2 (ih.1 p hp).1 (ih.1 p hp).2⟩

/-! ## Names -/

theorem zip_filter {names : List (List Char)} {L : List (List Particle)} {c : List Char} {l : List Particle} {i : ℕ}
    (hnd : names.Nodup) (hc : names[i]? = some c) (hl : L[i]? = some l) :
    (names.zip L).filter (fun s => s.1 = c) = [(c, l)] := by
  induction names generalizing L i with
  | nil => simp at hc
  | cons a names ih =>
    cases L with
    | nil => simp at hl
    | cons b L =>
      rw [List.nodup_cons] at hnd
      cases i with
      | zero =>
        simp only [List.getElem?_cons_zero, Option.some.injEq] at hc hl
        subst hc; subst hl
        rw [List.zip_cons_cons, List.filter_cons_of_pos (by simp)]
        congr 1
        rw [List.filter_eq_nil_iff]
        rintro ⟨x, y⟩ hx
        have := (List.of_mem_zip hx).1
        simp only [decide_eq_true_eq]
        rintro rfl
        exact hnd.1 this
      | succ i =>
        simp only [List.getElem?_cons_succ] at hc hl
        rw [List.zip_cons_cons, List.filter_cons_of_neg]
        · exact ih hnd.2 hc hl
        · simp only [decide_eq_true_eq]
          rintro rfl
          exact hnd.1 (List.mem_of_getElem? hc)

theorem shown_parts {G : Geom} {number : ℕ} {names : List (List Char)} {beamName : List Char} {s : ProgState} {S : Snap}
    (h : Shown G number names beamName s S) (hnd : names.Nodup) {c : List Char} (hc : '#' ∉ c) {i : ℕ}
    (hi : names[i]? = some c) {sp : Species} (hs : s.plasma[i]? = some sp) :
    S.parts.filter (fun s => s.1 = c) = [(c, sp.ps)] := by
  rw [h.parts, List.filter_append, zip_filter hnd hi (l := sp.ps) (by rw [List.getElem?_map, hs]; rfl)]
  rw [List.filter_eq_nil_iff.2, List.append_nil]
  rintro x hx
  obtain ⟨b, -, rfl⟩ := List.mem_map.1 hx
  intro hx'
  have : beamName ++ '#' :: dec b.bunch_number = c := of_decide_eq_true hx'
  subst this
  simp at hc

/-! ## C105 -/

/-- **C105 (partial)** In the run of `C105_fields_partial`, record `n` of a probe of the macroparticles of a species holds, in each of the
five data that are written, exactly the macroparticles that the species had in the cells of the window after iteration
`n·schedule`, in order; all of them are inside the chamber and slower than light.  Partial as in C63 and C65: the last cells are
included, no azimuth is written, and the reader needs room for the record. -/
theorem C105_particles_partial (G : Geom) (hG : G.Valid) (hnr : 3 ≤ G.nr) (hnz : 3 ≤ G.nz) (hnr' : G.nr ≤ 2 ^ 31)
    (hnz' : G.nz ≤ 2 ^ 31) (mode : PusherMode) (hmode : mode = .borisRelativistic ∨ mode = .vay) (P : BeamSetup) (hP : P.Usable G)
    (tbl : ℤ → ℤ → Option ℝ) (dt : ℝ) (hdt : 0 < dt) (hdr : LIGHT_SPEED * dt ≤ G.dr) (hdz : LIGHT_SPEED * dt ≤ G.dz)
    (plasma : List Species) (hlive : LivePlasma plasma) (hin : ∀ p ∈ parts plasma, Inside G p)
    (names : List (List Char)) (hnames : names.Nodup) (hlen : names.length = plasma.length) (beamName : List Char)
    (fpf : ℕ) (hfpf : 0 < fpf) (root : List Char) (ps : List ProbeDecl) (fs0 : OutFS) (hsep : Separate root ps)
    (hempty : ∀ p ∈ ps, ∀ name, fs0 (p.path root ++ '/' :: name) = none) (N : ℕ) (s : ProgState)
    (st : List (ProbeDecl × ℕ) × OutFS)
    (h : ProgOut G mode P tbl 0 dt plasma names beamName fpf root ps fs0 N s st) :
    ∃ hist, hist N = s ∧ History G mode P tbl dt plasma N hist ∧
      ∀ p ∈ ps, p.kind = .mpframe → p.specie = noneText → '#' ∉ p.component → p.component ∉ reserved →
        p.component ∉ shownArrays.map Prod.fst → 0 < p.schedule →
        ((0 ≤ p.start_r ∧ p.start_r < 2 ^ 31) ∧ (0 ≤ p.end_r ∧ p.end_r < 2 ^ 31) ∧
          (0 ≤ p.start_z ∧ p.start_z < 2 ^ 31) ∧ (0 ≤ p.end_z ∧ p.end_z < 2 ^ 31)) →
        ∀ i : ℕ, names[i]? = some p.component → ∀ n : ℕ, n * p.schedule.toNat < N →
        ∃ sp : Species, (hist (n * p.schedule.toNat + 1)).plasma[i]? = some sp ∧
          (∀ x ∈ sp.ps, x.alive = true ∧ Inside G x) ∧
          ((open Classical in sp.ps.filter fun x => InMpWindow G p x).length
            ≤ (p.end_r.toNat - p.start_r.toNat) * (p.end_z.toNat - p.start_z.toNat) * fpf →
          ∀ c f, mpData c = some f →
            getMpframe st.2 root p.component fpf p.start_r.toNat p.start_z.toNat p.end_r.toNat p.end_z.toNat c n
              = some ((open Classical in sp.ps.filter fun x => InMpWindow G p x).map fun x => fmt6 (f x))) := by
  classical
  obtain ⟨hist, S, e, hh, h3, h3', ha, hna, hrun⟩ := progOut_snaps h
  refine ⟨hist, e, hh, ?_⟩
  intro p hp hk hsp hhash hr harr hs hw i hi n hn
  have hil : i < plasma.length := by
    rw [← hlen]; exact (List.getElem?_eq_some_iff.1 hi).1
  have hex : ∀ j ≤ N, ∃ sp, (hist j).plasma[i]? = some sp ∧ ∀ x ∈ sp.ps, x.alive = true ∧ Inside G x := by
    intro j hj
    have hrunj := hh.run j hj
    obtain ⟨l1, l2⟩ := progRun_live hlive hrunj
    have hi' : i < (hist j).plasma.length := by omega
    refine ⟨_, List.getElem?_eq_getElem hi', fun x hx => ?_⟩
    have hm := List.getElem_mem hi'
    refine ⟨(l1 _ hm).2 x hx, ?_⟩
    exact (C78_any_plasma_partial G hG hnr hnz mode hmode 0 dt hdt hdr hdz tbl P hP plasma hin j _ hrunj).1.1 x
      (List.mem_flatMap.2 ⟨_, hm, hx⟩)
  have hex0 : ∃ sp, plasma[i]? = some sp ∧ ∀ x ∈ sp.ps, x.alive = true ∧ Inside G x := by
    refine ⟨_, List.getElem?_eq_getElem hil, fun x hx => ?_⟩
    exact ⟨(hlive _ (List.getElem_mem hil)).2 x hx, hin x (List.mem_flatMap.2 ⟨_, List.getElem_mem hil, hx⟩)⟩
  obtain ⟨sp0, hsp0, hin0⟩ := hex0
  have : Nonempty Species := ⟨⟨false, []⟩⟩
  choose! Q hQ hQin using hex
  have hbox : ∀ x : Particle, x.alive = true ∧ Inside G x →
      (0 ≤ x.pos.c0 ∧ x.pos.c0 ≤ 2 ^ 31 * G.dr) ∧ (0 ≤ x.pos.c2 ∧ x.pos.c2 ≤ 2 ^ 31 * G.dz) := by
    rintro x ⟨hx, hx'⟩
    obtain ⟨⟨a1, a2, a3, a4⟩, -⟩ := hx' hx
    have d1 := hG.dr_pos
    have d2 := hG.dz_pos
    have n1 : (G.nr : ℝ) ≤ 2 ^ 31 := by exact_mod_cast hnr'
    have n2 : (G.nz : ℝ) ≤ 2 ^ 31 := by exact_mod_cast hnz'
    have r1 : G.r_size ≤ 2 ^ 31 * G.dr := by
      rw [hG.r_size_eq, mul_comm]
      exact mul_le_mul_of_nonneg_right (by linarith) d1.le
    have r2 : G.z_size ≤ 2 ^ 31 * G.dz := by
      rw [hG.z_size_eq, mul_comm]
      exact mul_le_mul_of_nonneg_right (by linarith) d2.le
    exact ⟨⟨by linarith, by linarith⟩, ⟨by linarith, by linarith⟩⟩
  have hj1 : n * p.schedule.toNat + 1 ≤ N := hn
  refine ⟨Q (n * p.schedule.toNat + 1), hQ _ hj1, hQin _ hj1, fun hroom c f hc => ?_⟩
  have key := C65_read_back_partial G hG fpf hfpf root 0 dt le_rfl hdt S ps fs0 N st hsep hrun p hp hk hr hsp
    (fun j => hna j _ harr) (fun j => if j < N then (Q (j + 1)).ps else sp0.ps) ?_ hw ?_ (hempty p hp) n _
    (firing_at (p.cfg .frame) hs dt N n hn) c f hc ?_
  · rw [if_pos (show n * (p.cfg .frame).schedule.toNat < N from hn)] at key
    exact key
  · intro j
    split_ifs with hj
    · exact shown_parts (h3 j hj) hnames hhash hi (hQ (j + 1) hj)
    · rw [h3' j (by omega)]
      exact zip_filter hnames hi (by rw [List.getElem?_map, hsp0]; rfl)
  · intro j x hx
    split_ifs at hx with hj
    · exact hbox x (hQin (j + 1) hj x hx)
    · exact hbox x (hin0 x hx)
  · rw [if_pos (show n * (p.cfg .frame).schedule.toNat < N from hn)]
    exact hroom

/-- **C105** Output does not stand in the way: whatever run the program can do without output it can do with, as long as all
probes are usable and there are no more than `10 ^ k` iterations; and with output it does nothing else. -/
theorem C105_output_partial (G : Geom) (hG : G.Valid) (hnr : 3 ≤ G.nr) (hnz : 3 ≤ G.nz)
    (mode : PusherMode) (hmode : mode = .borisRelativistic ∨ mode = .vay) (P : BeamSetup) (hP : P.Usable G)
    (tbl : ℤ → ℤ → Option ℝ) (t0 dt : ℝ) (hdt : 0 < dt) (hdr : LIGHT_SPEED * dt ≤ G.dr) (hdz : LIGHT_SPEED * dt ≤ G.dz)
    (plasma : List Species) (hin : ∀ p ∈ parts plasma, Inside G p) (names : List (List Char)) (beamName : List Char)
    (fpf : ℕ) (hfpf : 0 < fpf) (root : List Char) (ps : List ProbeDecl) (fs0 : OutFS) (k : ℕ) (hk : 0 < k)
    (hps : ∀ p ∈ ps, Usable G root k p) (N : ℕ) (hN : N ≤ 10 ^ k) (s : ProgState) :
    ProgRun G mode P tbl t0 dt plasma N s ↔
      ∃ st, ProgOut G mode P tbl t0 dt plasma names beamName fpf root ps fs0 N s st := by
  constructor
  · intro h
    have key : ∀ {n s}, ProgRun G mode P tbl t0 dt plasma n s → n ≤ 10 ^ k →
        ∃ st, ProgOut G mode P tbl t0 dt plasma names beamName fpf root ps fs0 n s st ∧
          (∀ y ∈ st.1, y.1 ∈ ps ∧ y.2 ≤ n) := by
      intro n s h
      induction h with
      | start m1 m0 h1 h0 =>
        intro _
        exact ⟨_, .start m1 m0 h1 h0, by simp⟩
      | step n s s' hr hs ih =>
        intro hn
        obtain ⟨x, hx, hx'⟩ := ih (by omega)
        have hb := (C78_any_plasma_partial G hG hnr hnz mode hmode t0 dt hdt hdr hdz tbl P hP plasma hin (n + 1) s'
          (.step n s s' hr hs)).1.2
        have hwalls : WithinFarWalls G (s'.beam.bunches.map fun b => (List.range P.number).map b.ps).flatten := by
          intro p hp ha
          obtain ⟨l, hl, hpl⟩ := List.mem_flatten.1 hp
          obtain ⟨b, hb', rfl⟩ := List.mem_map.1 hl
          obtain ⟨i, hi, rfl⟩ := List.mem_map.1 hpl
          obtain ⟨⟨_, a2, _, a4⟩, -⟩ := hb b hb' i (List.mem_range.1 hi) ha
          exact ⟨a2.le, by linarith [hG.dz_pos]⟩
        have hcw := chargeWeighting_some G hG _ hwalls fun _ _ => 0
        rw [← C03_species_union] at hcw
        obtain ⟨rho, hrho⟩ : ∃ rho, chargeWeightingList G (s'.beam.bunches.map fun b => (List.range P.number).map b.ps)
          (fun _ _ => 0) = some rho := ⟨_, hcw⟩
        obtain ⟨S, hS⟩ : ∃ S, Shown G P.number names beamName s' S := ⟨⟨_, rho, [], [], _⟩, rfl, hrho, rfl⟩
        obtain ⟨y, hy, hy'⟩ := dumpData_isSome hfpf (root := root) (t := t0 + n * dt) (dt := dt) (S := S) hk
          (show n < 10 ^ k by omega) x.1 x.2 S.beam fun z hz => ⟨hps _ (hx' z hz).1, (hx' z hz).2⟩
        refine ⟨y, .step n s s' x y S hx hs hS hy, fun z hz => ⟨?_, hy' z hz⟩⟩
        have hm : z.1 ∈ x.1.map Prod.fst := by
          rw [← dumpData_fst hy]; exact List.mem_map_of_mem hz
        obtain ⟨w, hw, hw'⟩ := List.mem_map.1 hm
        rw [← hw']
        exact (hx' w hw).1
    obtain ⟨st, h1, -⟩ := key h hN
    exact ⟨st, h1⟩
  · rintro ⟨st, h⟩
    obtain ⟨hist, S, e, h1, -⟩ := progOut_history h
    rw [← e]
    exact h1 N le_rfl

theorem progRun_planar {G : Geom} (hG : G.Valid) (hnr : 3 ≤ G.nr) (hnz : 3 ≤ G.nz) {mode : PusherMode}
    (hmode : mode = .borisRelativistic ∨ mode = .vay) {t0 dt : ℝ} (hdt : 0 < dt)
    (hdr : LIGHT_SPEED * dt ≤ G.dr) (hdz : LIGHT_SPEED * dt ≤ G.dz) {tbl : ℤ → ℤ → Option ℝ}
    {P : BeamSetup} (hP : P.Usable G) {plasma : List Species} (hS : ∀ p ∈ parts plasma, Ready G p)
    {n : ℕ} {s : ProgState} (h : ProgRun G mode P tbl t0 dt plasma n s) : NoAzimuthalField G s.mem := by
  have core := fun {t : ℝ} {s : ProgState} => prog_step (G := G) (mode := mode) (P := P) (t := t) (s := s)
    (Q := Ready G) (Good := fun m => Initialised G m ∧ NoAzimuthalField G m) (Okay := fun _ => True)
    hG hP hdt hdz hnz (fun _ h => h)
    (fun m S hm hQ _ => by
      obtain ⟨c1, c2, c3⟩ := C76_cycle_partial G hG hnr hnz mode hmode dt hdt hdr hdz m S ⟨hm.1, hm.2, hQ⟩
      exact ⟨c1, c2, fun m' S' hc => ⟨⟨(c3 _ _ hc).init, (c3 _ _ hc).field⟩, (c3 _ _ hc).ready⟩⟩)
    (fun _ _ _ _ _ => trivial)
  have inv : (Initialised G s.mem ∧ NoAzimuthalField G s.mem) ∧ (∀ p ∈ parts s.plasma, Ready G p) ∧
      BeamInv (Ready G) G P dt 0 (t0 + n * dt) s.beam.bunches := by
    induction h with
    | start m1 m0 h1 h0 =>
      have := started_safe hG ⟨_, m1, h1, h0⟩ hS
      exact ⟨⟨this.init, this.field⟩, hS, fun b hb => by cases hb⟩
    | step n s s' _ hs ih =>
      obtain ⟨i1, i2, i3⟩ := ih
      obtain ⟨j1, j2, j3⟩ := (core i1 i2 i3).1 s' hs
      refine ⟨j1, j2, ?_⟩
      rw [show t0 + ((n + 1 : ℕ) : ℝ) * dt = t0 + n * dt + dt by push_cast; ring]
      exact j3
  exact inv.1.2

/-- **C105 (partial)** What C76 and C78 say of the states of a run is seen in its files: if nothing moves in azimuth at the
beginning, every complete record of a frame of a field of the azimuthal group (`E_phi`, `H_r` or `H_z`) that shows nodes of the grid is read
back as zeros.  Partial as `C105_fields_partial`. -/
theorem C105_planar_partial (G : Geom) (hG : G.Valid) (hnr : 3 ≤ G.nr) (hnz : 3 ≤ G.nz)
    (mode : PusherMode) (hmode : mode = .borisRelativistic ∨ mode = .vay) (P : BeamSetup) (hP : P.Usable G)
    (tbl : ℤ → ℤ → Option ℝ) (dt : ℝ) (hdt : 0 < dt) (hdr : LIGHT_SPEED * dt ≤ G.dr) (hdz : LIGHT_SPEED * dt ≤ G.dz)
    (plasma : List Species) (hplanar : ∀ p ∈ parts plasma, Ready G p) (names : List (List Char)) (beamName : List Char)
    (fpf : ℕ) (hfpf : 0 < fpf) (root : List Char) (ps : List ProbeDecl) (fs0 : OutFS) (hsep : Separate root ps)
    (hempty : ∀ p ∈ ps, ∀ name, fs0 (p.path root ++ '/' :: name) = none) (N : ℕ) (s : ProgState)
    (st : List (ProbeDecl × ℕ) × OutFS)
    (h : ProgOut G mode P tbl 0 dt plasma names beamName fpf root ps fs0 N s st) (p : ProbeDecl) (hp : p ∈ ps)
    (hk : p.kind = .frame) (hnn : p.NonNeg) (hs : 0 < p.schedule) (a : Arr) (hc : (p.component, a) ∈ shownArrays)
    (ha : a = .ephi ∨ a = .hr ∨ a = .hz)
    (hwin : ∀ i k, p.start_r ≤ i → i < p.end_r → p.start_z ≤ k → k < p.end_z → Init G ⟨a, i, k⟩) (n : ℕ)
    (hn : ((n / fpf + 1) * fpf - 1) * p.schedule.toNat < N) :
    fsGetFrame st.2 root p.resultComponent fpf p.start_r.toNat p.start_z.toNat p.end_r.toNat p.end_z.toNat n =
      some (List.replicate (p.end_r - p.start_r).toNat (List.replicate (p.end_z - p.start_z).toNat 0)) := by
  obtain ⟨hist, -, hh, hf⟩ := C105_fields_partial G mode P tbl dt hdt plasma names beamName fpf hfpf root ps fs0 hsep hempty N s st h
  have hbounds : (p.cfg .frame).InBounds G.nr G.nz := by
    have hN : G.nr ≥ 3 := hnr
    intro h1 h2
    have w1 := hwin p.start_r p.start_z le_rfl h1 le_rfl h2
    have w2 := hwin (p.end_r - 1) (p.end_z - 1) (by have : p.start_r < p.end_r := h1; omega) (by omega)
      (by have : p.start_z < p.end_z := h2; omega) (by omega)
    have al := w2.alloc
    have b1 : a.rows G = G.nr ∧ a.cols G = G.nz := by
      rcases ha with rfl | rfl | rfl <;> exact ⟨rfl, rfl⟩
    unfold Alloc at al
    rw [b1.1, b1.2] at al
    obtain ⟨al1, al2, al3, al4⟩ := al
    dsimp only at al2 al4
    exact ⟨⟨w1.1, show p.end_r ≤ G.nr by omega⟩, ⟨w1.2.2.1, show p.end_z ≤ G.nz by omega⟩⟩
  have h1 := (hf p hp a hc hs n).1 hk hnn hbounds hn
  rw [h1]
  congr 1
  have hle : n ≤ (n / fpf + 1) * fpf - 1 := by
    have h1 := Nat.div_add_mod n fpf
    have h2 := Nat.mod_lt n hfpf
    rw [Nat.add_mul, Nat.one_mul, Nat.mul_comm (n / fpf)]
    omega
  have hlt : n * p.schedule.toNat + 1 ≤ N := lt_of_le_of_lt (Nat.mul_le_mul_right _ hle) hn
  have hz := progRun_planar hG hnr hnz hmode hdt hdr hdz hP hplanar (hh.run _ hlt)
  have h0 : fmt6 0 = 0 := by
    have := C32_six_digits 0
    simpa using this
  have hval : ∀ i ∈ intRange p.start_r p.end_r, ∀ k ∈ intRange p.start_z p.end_z,
      fmt6 (fieldsOf (hist (n * p.schedule.toNat + 1)).mem a i k) = 0 := by
    intro i hi k hk
    rw [mem_intRange] at hi hk
    have := hz a i k (by rcases ha with rfl | rfl | rfl <;> simp [Arr.azimuthal]) (hwin i k hi.1 hi.2 hk.1 hk.2)
    unfold fieldsOf
    rw [this]
    exact h0
  unfold ProbeCfg.rows
  rw [List.eq_replicate_iff]
  refine ⟨by rw [List.length_map, intRange_length]; rfl, fun r hr => ?_⟩
  obtain ⟨i, hi, rfl⟩ := List.mem_map.1 hr
  rw [List.eq_replicate_iff]
  refine ⟨by rw [List.length_map, intRange_length]; rfl, fun v hv => ?_⟩
  obtain ⟨k, hk', rfl⟩ := List.mem_map.1 hv
  exact hval i hi k hk'

/-! Not vacuous: the geometry and the first bunch of the shipped configuration, one macroparticle of plasma, and two probes that write
every fifth iteration.  There are runs of 1000 iterations with output, in all of which the records are as the theorems say. -/

/-- at rest in the second cell -/
noncomputable def outPart (G : Geom) : Particle := ⟨true, ⟨G.dr, 0, G.dz⟩, ⟨G.dr, 0, G.dz⟩, ⟨0, 0, 0⟩, 1, 1, 0, 1⟩

def outProbes : List ProbeDecl :=
  [⟨.frame, ['E', '_', 'p', 'h', 'i'], noneText, 0, 0, 2, 2, 5⟩, ⟨.mpframe, ['i', 'o', 'n', 's'], noneText, 0, 0, 100, 100, 5⟩]

theorem outPart_ready {G : Geom} (hG : G.Valid) (hnr : 3 ≤ G.nr) (hnz : 3 ≤ G.nz) : Ready G (outPart G) := by
  have d1 := hG.dr_pos
  have d2 := hG.dz_pos
  have n1 : (3 : ℝ) ≤ G.nr := by exact_mod_cast hnr
  have n2 : (3 : ℝ) ≤ G.nz := by exact_mod_cast hnz
  have r1 : 2 * G.dr ≤ G.r_size := by rw [hG.r_size_eq]; nlinarith
  have r2 : 2 * G.dz ≤ G.z_size := by rw [hG.z_size_eq]; nlinarith
  intro _
  refine ⟨?_, rfl, rfl, by norm_num [outPart], by norm_num [outPart, speedSq, LIGHT_SPEED]⟩
  unfold InRegion outPart
  simp only
  refine ⟨?_, ?_, ?_, ?_⟩ <;> linarith

theorem outProbes_separate : Separate ['o'] outProbes := by unfold Separate outProbes; decide

example : ∃ (G : Geom) (P : BeamSetup), P.Usable G ∧ P.number_bunches = 1 ∧
    (∃ s st, ProgOut G .vay P (fun _ _ => none) 0 (1 / 10 ^ 13) [⟨false, [outPart G]⟩] [['i', 'o', 'n', 's']] ['b'] 10 ['o'] outProbes
      (fun _ => none) 1000 s st) ∧
    ∀ s st, ProgOut G .vay P (fun _ _ => none) 0 (1 / 10 ^ 13) [⟨false, [outPart G]⟩] [['i', 'o', 'n', 's']] ['b'] 10 ['o'] outProbes
      (fun _ => none) 1000 s st →
      (∀ n < 200, fsGetFrame st.2 ['o'] ['E', '_', 'p', 'h', 'i'] 10 0 0 2 2 n = some [[0, 0], [0, 0]]) ∧
      ∃ hist, hist 1000 = s ∧ History G .vay P (fun _ _ => none) (1 / 10 ^ 13) [⟨false, [outPart G]⟩] 1000 hist ∧
        ∀ n < 200, ∃ sp, (hist (n * 5 + 1)).plasma[0]? = some sp ∧ ∀ x ∈ sp.ps, x.alive = true ∧ Inside G x := by
  obtain ⟨G, hg, hv, hnr, hnz, hz, hdr, hdz, hP⟩ := shipped_setup true
  have hP' : BeamSetup.Usable G { (shipped true).meaning.beamSetup with number_bunches := 1 } :=
    ⟨hP.1, hP.2, hP.3, hP.4, hP.5, hP.6, hP.7, hP.8⟩
  have hready : ∀ p ∈ parts [⟨false, [outPart G]⟩], Ready G p := by
    intro p hp
    obtain rfl : p = outPart G := by simpa [parts] using hp
    exact outPart_ready hv hnr hnz
  have hinside : ∀ p ∈ parts [⟨false, [outPart G]⟩], Inside G p := by
    intro p hp ha
    obtain ⟨⟨a1, a2, a3, a4⟩, b1, -, b3, b4⟩ := hready p hp ha
    exact ⟨⟨a1, by linarith [hv.dr_pos], a3, a4⟩, b1, b3, b4⟩
  have husable : ∀ p ∈ outProbes, Verif.Usable G ['o'] 3 p := by
    intro p hp
    simp only [outProbes, List.mem_cons, List.not_mem_nil, or_false] at hp
    rcases hp with rfl | rfl <;> refine ⟨by norm_num, ?_, by decide⟩ <;> intro kd hkd <;> cases hkd
    intro _ _
    refine ⟨⟨le_rfl, ?_⟩, ⟨le_rfl, ?_⟩⟩
    · show (2 : ℤ) ≤ G.nr; omega
    · show (2 : ℤ) ≤ G.nz; omega
  have hsize : G.nr ≤ 2 ^ 31 ∧ G.nz ≤ 2 ^ 31 := by
    have h1 : (shipped true).meaning.geom.n_grid_r.toNat = 31 := rfl
    have h2 : (shipped true).meaning.geom.n_grid_z.toNat = 255 := rfl
    unfold Config.geometry at hg
    rw [h1, h2] at hg
    unfold mkGeom at hg
    split_ifs at hg
    rw [Option.some.injEq] at hg
    subst hg
    norm_num
  have hlive : LivePlasma [⟨false, [outPart G]⟩] := by
    intro s hs
    obtain rfl := List.mem_singleton.1 hs
    refine ⟨rfl, fun p hp => ?_⟩
    obtain rfl := List.mem_singleton.1 hp
    rfl
  refine ⟨G, _, hP', rfl, ?_, ?_⟩
  · obtain ⟨s, hs⟩ := (C78_single_bunch_partial G hv hnr hnz .vay (Or.inr rfl) 0 (1 / 10 ^ 13) (by norm_num) hdr hdz
      (fun _ _ => none) _ hP' le_rfl _ hready).2 1000
    obtain ⟨st, hst⟩ := (C105_output_partial G hv hnr hnz .vay (Or.inr rfl) _ hP' (fun _ _ => none) 0 (1 / 10 ^ 13) (by norm_num) hdr
      hdz _ hinside [['i', 'o', 'n', 's']] ['b'] 10 (by norm_num) ['o'] outProbes (fun _ => none) 3 (by norm_num) husable 1000
      (by norm_num) s).1 hs
    exact ⟨s, st, hst⟩
  · intro s st h
    constructor
    · intro n hn
      have := C105_planar_partial G hv hnr hnz .vay (Or.inr rfl) _ hP' (fun _ _ => none) (1 / 10 ^ 13) (by norm_num) hdr hdz _ hready
        _ _ 10 (by norm_num) ['o'] outProbes _ outProbes_separate (fun _ _ _ => rfl) 1000 s st h _
        (List.mem_cons_self ..) rfl (by simp [ProbeDecl.NonNeg]) (by norm_num) .ephi (by simp [shownArrays]) (Or.inl rfl)
        (fun i k h1 h2 h3 h4 => by
          simp only at h1 h2 h3 h4
          refine ⟨h1, ?_, h3, ?_⟩ <;> simp only [Arr.initRows, Arr.initCols] <;> omega) n
        (by show ((n / 10 + 1) * 10 - 1) * 5 < 1000; omega)
      have hrc : (ProbeDecl.mk .frame ['E', '_', 'p', 'h', 'i'] noneText 0 0 2 2 5).resultComponent = ['E', '_', 'p', 'h', 'i'] := by
        simp [ProbeDecl.resultComponent]
      rw [hrc] at this
      simpa [List.replicate] using this
    · obtain ⟨hist, e, hh, hf⟩ := C105_particles_partial G hv hnr hnz hsize.1 hsize.2 .vay (Or.inr rfl) _ hP' (fun _ _ => none)
        (1 / 10 ^ 13) (by norm_num) hdr hdz _ hlive hinside _ (by simp) rfl _ 10 (by norm_num) ['o'] outProbes _ outProbes_separate
        (fun _ _ _ => rfl) 1000 s st h
      refine ⟨hist, e, hh, fun n hn => ?_⟩
      obtain ⟨sp, h1, h2, -⟩ := hf _ (List.mem_cons_of_mem _ (List.mem_singleton.2 rfl)) rfl rfl (by decide) (by decide) (by decide)
        (by norm_num) (by norm_num) 0 rfl n (by show n * 5 < 1000; omega)
      exact ⟨sp, h1, h2⟩

end Verif
