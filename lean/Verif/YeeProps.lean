import Verif.YeeEnergy
import Verif.DepositProps

/-!
# Properties of the field solver (C08-C15, C47)

Specification: `divH`, `WallE`, `gaussDefect`, `energy` in `Verif/YeePhysics.lean`; memory,
programs and runs in `Verif/ParMem.lean`, `Verif/YeeModel.lean`.
-/

namespace Verif

/-! ## Specification -/

/-- The values in memory (0 where nothing was written). -/
def fieldsOf (m : Mem Loc) : Fields := fun a i k => (m ⟨a, i, k⟩).getD 0

/-- Every staggered node of every component has been written. -/
def Initialised (G : Geom) (m : Mem Loc) : Prop := ∀ l, Init G l → (m l).isSome

/-- `m0` is a memory the set-up of a run can leave; `tbl` is the conductivity table. -/
def Started (G : Geom) (tbl : ℤ → ℤ → Option ℝ) (m0 : Mem Loc) : Prop :=
  ∃ m m1, RegionRun (Alloc G) (setupRegion G) m m1 ∧ RegionRun (Alloc G) (pmlRegion G tbl) m1 m0

/-- All deposits go to existing nodes. -/
def CallsOk (G : Geom) (calls : ℕ → List JCall) : Prop := ∀ n, ∀ c ∈ calls n, c.Ok G

/-! ## Helpers -/

theorem Initialised.rep {G : Geom} {m : Mem Loc} (h : Initialised G m) : Rep G (fieldsOf m) m := by
  rintro ⟨a, i, k⟩ hl
  obtain ⟨v, hv⟩ := Option.isSome_iff_exists.1 (h _ hl)
  simp only [Fields.at, fieldsOf, hv, Option.getD_some]

theorem Rep.initialised {G : Geom} {F : Fields} {m : Mem Loc} (h : Rep G F m) :
    Initialised G m := fun l hl => by rw [h l hl]; rfl

/-- two field states agree on all staggered nodes -/
def Agree (G : Geom) (F F' : Fields) : Prop := ∀ a i k, Init G ⟨a, i, k⟩ → F a i k = F' a i k

theorem Rep.agree {G : Geom} {F : Fields} {m : Mem Loc} (h : Rep G F m) :
    Agree G (fieldsOf m) F := fun a i k hl => by
  simp only [fieldsOf, h _ hl, Option.getD_some, Fields.at]

theorem agree_at {G : Geom} {F F' : Fields} (h : Agree G F F') (a : Arr) (i k : ℤ)
    (h1 : 0 ≤ i) (h2 : i < a.initRows G) (h3 : 0 ≤ k) (h4 : k < a.initCols G) :
    F a i k = F' a i k := h a i k ⟨h1, h2, h3, h4⟩

/-- discharge range conditions -/
macro "rng" : tactic =>
  `(tactic| first | omega | (simp only [Arr.initRows, Arr.initCols, Box] at *; omega))

theorem Agree.divH {G : Geom} {F F' : Fields} (h : Agree G F F') {i k : ℤ}
    (hi : 0 ≤ i) (hi' : i < G.nr - 1) (hk : 0 ≤ k) (hk' : k < G.nz - 1) :
    divH G F i k = divH G F' i k := by
  unfold Verif.divH
  rw [agree_at h .hr (i + 1) k (by rng) (by rng) (by rng) (by rng),
    agree_at h .hr i k (by rng) (by rng) (by rng) (by rng),
    agree_at h .hz i (k + 1) (by rng) (by rng) (by rng) (by rng),
    agree_at h .hz i k (by rng) (by rng) (by rng) (by rng)]

theorem Agree.wall {G : Geom} (hG : G.Valid) {F F' : Fields} (h : Agree G F F') (hw : WallE G F') :
    WallE G F := by
  have n1 := hG.nr_ge
  have n2 := hG.nz_ge
  constructor
  · intro k p q; rw [agree_at h .ephi 0 k (by rng) (by rng) (by rng) (by rng)]; exact hw.1 k p q
  · intro k p q
    rw [agree_at h .ephi (G.nr - 1) k (by rng) (by rng) (by rng) (by rng)]; exact hw.2 k p q
  · intro i p q; rw [agree_at h .ephi i 0 (by rng) (by rng) (by rng) (by rng)]; exact hw.3 i p q
  · intro i p q
    rw [agree_at h .ephi i (G.nz - 1) (by rng) (by rng) (by rng) (by rng)]; exact hw.4 i p q
  · intro i p q; rw [agree_at h .er i 0 (by rng) (by rng) (by rng) (by rng)]; exact hw.5 i p q
  · intro i p q
    rw [agree_at h .er i (G.nz - 1) (by rng) (by rng) (by rng) (by rng)]; exact hw.6 i p q
  · intro k p q
    rw [agree_at h .ez (G.nr - 1) k (by rng) (by rng) (by rng) (by rng)]; exact hw.7 k p q

theorem Agree.gauss {G : Geom} (hG : G.Valid) {F F' : Fields} (h : Agree G F F') (e : ℝ)
    (rho : Grid) {a b : ℤ} (ha : 0 ≤ a) (ha' : a < G.nr - 1) (hb : 1 ≤ b) (hb' : b < G.nz - 1) :
    gaussDefect G e F rho a b = gaussDefect G e F' rho a b := by
  unfold gaussDefect netOutflow
  rw [agree_at h .er a b (by rng) (by rng) (by rng) (by rng),
    agree_at h .ez a b (by rng) (by rng) (by rng) (by rng),
    agree_at h .ez a (b - 1) (by rng) (by rng) (by rng) (by rng)]
  rcases eq_or_lt_of_le ha with h0 | h0
  · subst h0
    have m1 : max 0 ((((0:ℤ) : ℝ) - 1 / 2) * G.dr) = 0 := by
      apply max_eq_left; push_cast; nlinarith [hG.dr_pos]
    rw [m1]; ring
  · rw [agree_at h .er (a - 1) b (by rng) (by rng) (by rng) (by rng)]

theorem Agree.energy {G : Geom} (hG : G.Valid) {F F' H H' : Fields} (h : Agree G F F')
    (h2 : Agree G H H') : energy G F H = energy G F' H' := by
  have n1 := hG.nr_ge
  unfold Verif.energy
  congr 1
  · apply sumE_congr hG
    intro a i k hn
    have he : F .eps i k = F' .eps i k := by
      apply agree_at h <;> cases a <;> simp only [ENode] at hn <;> rng
    have hf : F a i k = F' a i k := by
      apply agree_at h <;> cases a <;> simp only [ENode] at hn <;> rng
    rw [he, hf]
  · apply sumH_congr
    intro a i k hn
    have hf : F a i k = F' a i k := by
      apply agree_at h <;> cases a <;> simp only [HNode] at hn <;> rng
    have hf2 : H a i k = H' a i k := by
      apply agree_at h2 <;> cases a <;> simp only [HNode] at hn <;> rng
    rw [hf, hf2]

theorem Started.rep {G : Geom} (hG : G.Valid) {tbl : ℤ → ℤ → Option ℝ} {m0 : Mem Loc}
    (h : Started G tbl m0) : Rep G (setupFields (fun i k => (tbl i k).getD 0)) m0 := by
  obtain ⟨m, m1, h1, h2⟩ := h
  obtain ⟨x, s1, r1⟩ := setup_spec hG m
  obtain ⟨y, s2, r2⟩ := pml_spec tbl r1
  rw [s1.sound.2.2 _ h1] at h2
  rw [s2.sound.2.2 _ h2]; exact r2

theorem run_rep {G : Geom} (hG : G.Valid) {dt : ℝ} {calls : ℕ → List JCall} (hc : CallsOk G calls)
    {F : Fields} {m m' : Mem Loc} (hR : Rep G F m) {n : ℕ} (h : FieldRun G dt calls n m m') :
    Rep G (fRun G dt calls F n) m' := by
  obtain ⟨x, -, u, r⟩ := fieldRun_spec hG dt hc hR n
  rw [u _ h]; exact r

/-! ## C12: schedules -/

/-- The magnetic update, the electric update and the current reset: from any initialised memory no
schedule faults, some schedule finishes, and all finishing schedules leave the same memory. -/
theorem C12_updates_schedule_independent (G : Geom) (hG : G.Valid) (dt : ℝ) (m : Mem Loc)
    (hm : Initialised G m) :
    ∀ R ∈ [hRegion G dt, eRegion G dt, resetJRegion G],
      ¬ RegionFault (Alloc G) R m ∧ ∃ m', RegionRun (Alloc G) R m m' ∧
        ∀ m'', RegionRun (Alloc G) R m m'' → m'' = m' := by
  intro R hR
  simp only [List.mem_cons, List.not_mem_nil, or_false] at hR
  rcases hR with rfl | rfl | rfl
  · obtain ⟨m', s, -⟩ := hRegion_spec hG dt hm.rep
    exact ⟨s.sound.1, m', s.sound.2⟩
  · obtain ⟨m', s, -⟩ := eRegion_spec hG dt hm.rep
    exact ⟨s.sound.1, m', s.sound.2⟩
  · obtain ⟨s, -⟩ := resetJ_spec hG hm.rep
    exact ⟨s.sound.1, _, s.sound.2⟩

/-- A whole step, including the order in which the particles' increments arrive. -/
theorem C12_step_schedule_independent (G : Geom) (hG : G.Valid) (dt : ℝ) (calls : List JCall)
    (hc : ∀ c ∈ calls, c.Ok G) (m : Mem Loc) (hm : Initialised G m) :
    ∃ m', FieldStep G dt calls m m' ∧ ∀ m'', FieldStep G dt calls m m'' → m'' = m' := by
  obtain ⟨-, m', h1, h2, -⟩ := fieldStep_spec hG dt hc hm.rep
  exact ⟨m', h1, h2⟩

/-! ## C13: memory safety -/

/-- Set-up never faults and can complete, from completely unwritten (or any other) memory. -/
theorem C13_setup_safe (G : Geom) (hG : G.Valid) (tbl : ℤ → ℤ → Option ℝ) (m : Mem Loc) :
    ¬ RegionFault (Alloc G) (setupRegion G) m ∧
    (∀ m1, RegionRun (Alloc G) (setupRegion G) m m1 →
      ¬ RegionFault (Alloc G) (pmlRegion G tbl) m1) ∧
    ∃ m0, Started G tbl m0 := by
  obtain ⟨x, s1, r1⟩ := setup_spec hG m
  obtain ⟨y, s2, r2⟩ := pml_spec tbl r1
  refine ⟨s1.sound.1, ?_, y, m, x, s1.sound.2.1, s2.sound.2.1⟩
  intro m1 h1
  rw [s1.sound.2.2 _ h1]; exact s2.sound.1

/-- After set-up, no step of any length of run can fault under any schedule: no load of an
unwritten or unallocated element, no store outside an allocation.  Every run can be continued. -/
theorem C13_run_safe (G : Geom) (hG : G.Valid) (dt : ℝ) (tbl : ℤ → ℤ → Option ℝ)
    (calls : ℕ → List JCall) (hc : CallsOk G calls) (m0 m : Mem Loc) (h0 : Started G tbl m0) (n : ℕ)
    (hrun : FieldRun G dt calls n m0 m) :
    ¬ FieldStepFault G dt (calls n) m ∧ ∃ m', FieldRun G dt calls (n + 1) m0 m' := by
  have r := run_rep hG hc (h0.rep hG) hrun
  obtain ⟨f, m', h1, -⟩ := fieldStep_spec hG dt (hc n) r
  exact ⟨f, m', .succ n m0 m m' hrun h1⟩

/-! ## C08: divergence of H -/

/-- Histories of magnetic updates (with any time steps) interleaved with arbitrary changes of
everything except `H_r` and `H_z`, as long as `E_phi` vanishes on the far plane wall whenever the
magnetic field is updated. -/
inductive HHistory (G : Geom) : Mem Loc → Mem Loc → Prop
  | refl (m) : HHistory G m m
  | update (m m1 m2 : Mem Loc) (dt : ℝ) (h : HHistory G m m1)
      (hw : ∀ i : ℤ, 0 ≤ i → i < G.nr → fieldsOf m1 .ephi i (G.nz - 1) = 0)
      (hr : RegionRun (Alloc G) (hRegion G dt) m1 m2) : HHistory G m m2
  | other (m m1 m2 : Mem Loc) (h : HHistory G m m1) (hi : Initialised G m2)
      (hs : ∀ i k, m2 ⟨.hr, i, k⟩ = m1 ⟨.hr, i, k⟩ ∧ m2 ⟨.hz, i, k⟩ = m1 ⟨.hz, i, k⟩) :
      HHistory G m m2

/-- **C08**. The divergence of `H` in every cell never changes. -/
theorem C08_divergence_constant (G : Geom) (hG : G.Valid) (m m' : Mem Loc) (hm : Initialised G m)
    (h : HHistory G m m') (i k : ℤ) (hi : 0 ≤ i) (hi' : i < G.nr - 1) (hk : 0 ≤ k)
    (hk' : k < G.nz - 1) : divH G (fieldsOf m') i k = divH G (fieldsOf m) i k := by
  suffices Initialised G m' ∧ divH G (fieldsOf m') i k = divH G (fieldsOf m) i k from this.2
  induction h with
  | refl => exact ⟨hm, rfl⟩
  | update m1 m2 dt _ hw hr ih =>
    obtain ⟨i1, e1⟩ := ih
    obtain ⟨x, s, r⟩ := hRegion_spec hG dt i1.rep
    rw [← s.sound.2.2 _ hr] at r
    refine ⟨r.initialised, ?_⟩
    rw [r.agree.divH hi hi' hk hk', divH_hStep hG dt _ hw hi hi' hk hk', e1]
  | other m1 m2 _ hi2 hs ih =>
    refine ⟨hi2, ?_⟩
    rw [← ih.2]
    unfold divH fieldsOf
    rw [(hs _ _).1, (hs _ _).1, (hs _ _).2, (hs _ _).2]

/-- **C08** for the run loop: the magnetic field is divergence free after any number of steps. -/
theorem C08_divergence_free_run (G : Geom) (hG : G.Valid) (dt : ℝ) (tbl : ℤ → ℤ → Option ℝ)
    (calls : ℕ → List JCall) (hc : CallsOk G calls) (m0 m : Mem Loc) (h0 : Started G tbl m0) (n : ℕ)
    (hrun : FieldRun G dt calls n m0 m) (i k : ℤ) (hi : 0 ≤ i) (hi' : i < G.nr - 1) (hk : 0 ≤ k)
    (hk' : k < G.nz - 1) : divH G (fieldsOf m) i k = 0 := by
  have r0 := h0.rep hG
  rw [(run_rep hG hc r0 hrun).agree.divH hi hi' hk hk']
  have key : ∀ n, divH G (fRun G dt calls (setupFields (fun i k => (tbl i k).getD 0)) n) i k = 0 := by
    intro n
    induction n with
    | zero => simp [fRun, divH, setupFields]
    | succ n ih =>
      have hw := (WallE.setup G (fun i k => (tbl i k).getD 0)).run hG dt calls n
      exact (divH_hStep hG dt _ hw.phi_right hi hi' hk hk').trans ih
  exact key n

/-! ## C09: walls -/

/-- **C09**. The wall conditions hold after set-up and after every step. -/
theorem C09_walls_run (G : Geom) (hG : G.Valid) (dt : ℝ) (tbl : ℤ → ℤ → Option ℝ)
    (calls : ℕ → List JCall) (hc : CallsOk G calls) (m0 m : Mem Loc) (h0 : Started G tbl m0) (n : ℕ)
    (hrun : FieldRun G dt calls n m0 m) : WallE G (fieldsOf m) :=
  (run_rep hG hc (h0.rep hG) hrun).agree.wall hG ((WallE.setup G _).run hG dt calls n)

/-- **C09** from any state that meets them: each electric update and each magnetic update keeps
the wall conditions, whatever the magnetic field, the currents and the materials are. -/
theorem C09_walls_update (G : Geom) (hG : G.Valid) (dt : ℝ) (m m' : Mem Loc)
    (hm : Initialised G m) (hw : WallE G (fieldsOf m)) (R : Region Loc (ℤ × ℤ))
    (hR : R ∈ [hRegion G dt, eRegion G dt]) (hrun : RegionRun (Alloc G) R m m') :
    WallE G (fieldsOf m') := by
  simp only [List.mem_cons, List.not_mem_nil, or_false] at hR
  rcases hR with rfl | rfl
  · obtain ⟨x, s, r⟩ := hRegion_spec hG dt hm.rep
    rw [← s.sound.2.2 _ hrun] at r
    exact r.agree.wall hG (hw.hStep dt)
  · obtain ⟨x, s, r, -⟩ := eRegion_spec hG dt hm.rep
    rw [← s.sound.2.2 _ hrun] at r
    exact r.agree.wall hG (hw.eStep hG dt)

/-! ## C10: Gauss's law -/

/-- materials are not changed by a run -/
theorem fRun_material (G : Geom) (dt : ℝ) (calls : ℕ → List JCall) (F : Fields) (n : ℕ) :
    fRun G dt calls F n .eps = F .eps ∧ fRun G dt calls F n .sig = F .sig := by
  induction n with
  | zero => exact ⟨rfl, rfl⟩
  | succ n ih => rw [← ih.1, ← ih.2]; exact ⟨rfl, rfl⟩

/-- **C10**. Uniform lossless medium, any initialised fields, any number of steps, any currents
whose deposits satisfy continuity with the charge densities `rho 0, rho 1, …`: the defect of Gauss's
law at every node off the walls (the axis included) stays what it was. -/
theorem C10_gauss_preserved (G : Geom) (hG : G.Valid) (dt e : ℝ) (he : 0 < e)
    (calls : ℕ → List JCall) (hc : CallsOk G calls) (m m' : Mem Loc) (hm : Initialised G m)
    (heps : ∀ i k, Box 0 G.nr 0 G.nz i k → fieldsOf m .eps i k = e)
    (hsig : ∀ i k, Box 0 G.nr 0 G.nz i k → fieldsOf m .sig i k = 0)
    (rho : ℕ → Grid) (n : ℕ)
    (hcont : ∀ j, j < n → Continuity G dt (rho j) (rho (j + 1)) (callSum (calls j) .jr)
      (callSum (calls j) .jz))
    (hrun : FieldRun G dt calls n m m') (a b : ℤ) (ha : 0 ≤ a) (ha' : a < G.nr - 1) (hb : 1 ≤ b)
    (hb' : b < G.nz - 1) :
    gaussDefect G e (fieldsOf m') (rho n) a b = gaussDefect G e (fieldsOf m) (rho 0) a b := by
  rw [(run_rep hG hc hm.rep hrun).agree.gauss hG e _ ha ha' hb hb']
  clear hrun m'
  induction n with
  | zero => rfl
  | succ n ih =>
    rw [← ih (fun j hj => hcont j (by omega))]
    obtain ⟨m1, m2⟩ := fRun_material G dt calls (fieldsOf m) n
    exact gauss_eStep hG dt he (withJ (hStep G dt (fRun G dt calls (fieldsOf m) n))
      (callSum (calls n) .jr) (callSum (calls n) .jphi) (callSum (calls n) .jz))
      (rho n) (rho (n + 1)) ha ha' hb hb'
      (fun i k h => by rw [← heps i k h]; exact congrFun (congrFun m1 i) k)
      (fun i k h => by rw [← hsig i k h]; exact congrFun (congrFun m2 i) k)
      (hcont n (by omega) a b ha)

/-! ## C11: energy -/

/-- The energy of a memory: it involves the magnetic field after the next magnetic update, which
`mh` holds. -/
noncomputable def memEnergy (G : Geom) (m mh : Mem Loc) : ℝ := energy G (fieldsOf m) (fieldsOf mh)

/-- **C11** (one step). Change of energy = - work done on the current - Ohmic loss. -/
theorem C11_energy_balance (G : Geom) (hG : G.Valid) (dt : ℝ) (calls : List JCall)
    (hc : ∀ c ∈ calls, c.Ok G) (m mh m' mh' : Mem Loc) (hm : Initialised G m)
    (hw : WallE G (fieldsOf m))
    (hd : ∀ i k, Box 0 G.nr 0 G.nz i k →
      2 * fieldsOf m .eps i k * EPSILON0 + fieldsOf m .sig i k * dt ≠ 0)
    (h1 : RegionRun (Alloc G) (hRegion G dt) m mh) (h2 : FieldStep G dt calls m m')
    (h3 : RegionRun (Alloc G) (hRegion G dt) m' mh') :
    memEnergy G m' mh' = memEnergy G m mh
      - sumE G (fun a i k =>
          dt * currentOf (fieldsOf m') a i k * ((fieldsOf m a i k + fieldsOf m' a i k) / 2)
          + dt * fieldsOf m .sig i k * ((fieldsOf m a i k + fieldsOf m' a i k) / 2) ^ 2) := by
  obtain ⟨x, s1, r1⟩ := hRegion_spec hG dt hm.rep
  rw [← s1.sound.2.2 _ h1] at r1
  obtain ⟨-, y, -, u2, r2, -⟩ := fieldStep_spec hG dt hc hm.rep
  rw [← u2 _ h2] at r2
  obtain ⟨z, s3, r3⟩ := hRegion_spec hG dt r2
  rw [← s3.sound.2.2 _ h3] at r3
  have bal := energy_balance hG (dt := dt) (fieldsOf m) (callSum calls .jr) (callSum calls .jphi)
    (callSum calls .jz) hw hd
  unfold memEnergy
  have refl : Agree G (fieldsOf m) (fieldsOf m) := fun _ _ _ _ => rfl
  rw [r2.agree.energy hG r3.agree, refl.energy hG r1.agree, bal]
  congr 1
  apply sumE_congr hG
  intro a i k hn
  have n1 := hG.nr_ge
  have hf : fieldsOf m' a i k = fStep G dt (callSum calls .jr) (callSum calls .jphi)
      (callSum calls .jz) (fieldsOf m) a i k := by
    apply agree_at r2.agree <;> cases a <;> simp only [ENode] at hn <;> rng
  have hj : currentOf (fieldsOf m') a i k = currentOf (fStep G dt (callSum calls .jr)
      (callSum calls .jphi) (callSum calls .jz) (fieldsOf m)) a i k := by
    cases a <;> simp only [ENode] at hn <;> simp only [currentOf]
    · apply agree_at r2.agree <;> rng
    · apply agree_at r2.agree <;> rng
    · apply agree_at r2.agree <;> rng
  rw [hf, hj]

theorem step_initialised {G : Geom} (hG : G.Valid) {dt : ℝ} {calls : List JCall}
    (hc : ∀ c ∈ calls, c.Ok G) {m m' : Mem Loc} (hm : Initialised G m)
    (h : FieldStep G dt calls m m') : Initialised G m' ∧
      (WallE G (fieldsOf m) → WallE G (fieldsOf m')) ∧
      ∀ i k, Box 0 G.nr 0 G.nz i k → fieldsOf m' .eps i k = fieldsOf m .eps i k ∧
        fieldsOf m' .sig i k = fieldsOf m .sig i k := by
  obtain ⟨-, y, -, u2, r2, -⟩ := fieldStep_spec hG dt hc hm.rep
  rw [← u2 _ h] at r2
  refine ⟨r2.initialised, fun hw => r2.agree.wall hG (hw.fStep hG dt _ _ _), ?_⟩
  intro i k hb
  constructor
  · rw [agree_at r2.agree .eps i k (by rng) (by rng) (by rng) (by rng)]; rfl
  · rw [agree_at r2.agree .sig i k (by rng) (by rng) (by rng) (by rng)]; rfl

/-- **C11**. Without deposits and with non-negative conductivity the energy never increases, over
any number of steps; with zero conductivity it is exactly constant. -/
theorem C11_energy_run (G : Geom) (hG : G.Valid) (dt : ℝ) (hdt : 0 ≤ dt) (m m' mh mh' : Mem Loc)
    (n : ℕ) (hm : Initialised G m) (hw : WallE G (fieldsOf m))
    (heps : ∀ i k, Box 0 G.nr 0 G.nz i k → 0 < fieldsOf m .eps i k)
    (hsig : ∀ i k, Box 0 G.nr 0 G.nz i k → 0 ≤ fieldsOf m .sig i k)
    (hrun : FieldRun G dt (fun _ => []) n m m')
    (h1 : RegionRun (Alloc G) (hRegion G dt) m mh)
    (h2 : RegionRun (Alloc G) (hRegion G dt) m' mh') :
    memEnergy G m' mh' ≤ memEnergy G m mh ∧
    ((∀ i k, Box 0 G.nr 0 G.nz i k → fieldsOf m .sig i k = 0) →
      memEnergy G m' mh' = memEnergy G m mh) := by
  suffices H : ∀ n m', FieldRun G dt (fun _ => []) n m m' →
      (Initialised G m' ∧ WallE G (fieldsOf m') ∧
        (∀ i k, Box 0 G.nr 0 G.nz i k → fieldsOf m' .eps i k = fieldsOf m .eps i k ∧
          fieldsOf m' .sig i k = fieldsOf m .sig i k)) ∧
      ∀ mh', RegionRun (Alloc G) (hRegion G dt) m' mh' →
        memEnergy G m' mh' ≤ memEnergy G m mh ∧
        ((∀ i k, Box 0 G.nr 0 G.nz i k → fieldsOf m .sig i k = 0) →
          memEnergy G m' mh' = memEnergy G m mh) from (H n m' hrun).2 mh' h2
  intro n
  induction n with
  | zero =>
    intro m' h
    cases h
    refine ⟨⟨hm, hw, fun _ _ _ => ⟨rfl, rfl⟩⟩, ?_⟩
    intro mh' h
    obtain ⟨x, s1, -⟩ := hRegion_spec hG dt hm.rep
    rw [s1.sound.2.2 _ h, s1.sound.2.2 _ h1]
    exact ⟨le_rfl, fun _ => rfl⟩
  | succ n ih =>
    intro m2 h
    cases h with
    | succ _ _ m1 _ hx hs =>
      obtain ⟨⟨i1, w1, e1⟩, H⟩ := ih m1 hx
      obtain ⟨i2, w2, e2⟩ := step_initialised hG (by simp) i1 hs
      refine ⟨⟨i2, w2 w1, fun i k hb => ⟨(e2 i k hb).1.trans (e1 i k hb).1,
        (e2 i k hb).2.trans (e1 i k hb).2⟩⟩, ?_⟩
      intro mh2 hh2
      obtain ⟨mh1, s1, -⟩ := hRegion_spec hG dt i1.rep
      obtain ⟨H1, H2⟩ := H mh1 s1.sound.2.1
      have hd : ∀ i k, Box 0 G.nr 0 G.nz i k →
          2 * fieldsOf m1 .eps i k * EPSILON0 + fieldsOf m1 .sig i k * dt ≠ 0 := by
        intro i k hb
        rw [(e1 i k hb).1, (e1 i k hb).2]
        have a1 := heps i k hb
        have a2 := hsig i k hb
        have a3 := EPSILON0_pos
        positivity
      have bal := C11_energy_balance G hG dt [] (by simp) m1 mh1 m2 mh2 i1 w1 hd s1.sound.2.1 hs hh2
      -- the currents are zero
      have hj : ∀ a i k, ENode G a i k → currentOf (fieldsOf m2) a i k = 0 := by
        intro a i k hn
        have n1 := hG.nr_ge
        have n2 := hG.nz_ge
        obtain ⟨-, y, -, u2, -, fj⟩ := fieldStep_spec hG dt (calls := []) (by simp) i1.rep
        rw [← u2 _ hs] at fj
        cases a <;> simp only [ENode] at hn <;> simp only [currentOf, fieldsOf]
        · rw [fj .jr i k (by simp) (by rng)]; rfl
        · rw [fj .jphi i k (by simp) (by rng)]; rfl
        · rw [fj .jz i k (by simp) (by rng)]; rfl
      have hbox : ∀ a i k, ENode G a i k → Box 0 G.nr 0 G.nz i k := by
        intro a i k hn; cases a <;> simp only [ENode, Box] at * <;> omega
      constructor
      · have : 0 ≤ sumE G (fun a i k =>
            dt * currentOf (fieldsOf m2) a i k * ((fieldsOf m1 a i k + fieldsOf m2 a i k) / 2)
            + dt * fieldsOf m1 .sig i k * ((fieldsOf m1 a i k + fieldsOf m2 a i k) / 2) ^ 2) := by
          apply sumE_nonneg hG
          intro a i k hn
          rw [hj a i k hn, (e1 i k (hbox a i k hn)).2]
          have a2 := hsig i k (hbox a i k hn)
          have : 0 ≤ dt * fieldsOf m .sig i k *
            ((fieldsOf m1 a i k + fieldsOf m2 a i k) / 2) ^ 2 := by positivity
          linarith
        linarith
      · intro hz
        have : sumE G (fun a i k =>
            dt * currentOf (fieldsOf m2) a i k * ((fieldsOf m1 a i k + fieldsOf m2 a i k) / 2)
            + dt * fieldsOf m1 .sig i k * ((fieldsOf m1 a i k + fieldsOf m2 a i k) / 2) ^ 2) =
            sumE G (fun _ _ _ => 0) := by
          apply sumE_congr hG
          intro a i k hn
          rw [hj a i k hn, (e1 i k (hbox a i k hn)).2, hz i k (hbox a i k hn)]
          ring
        rw [bal, this, H2 hz]
        have : sumE G (fun _ _ _ => 0) = 0 := by unfold sumE sumBox; simp
        rw [this, sub_zero]

/-! ## C14: time-centred magnetic field -/

/-- the integer-time array that belongs to a magnetic component -/
def halfOf : Arr → Arr
  | .hr => .hrh
  | .hphi => .hphih
  | .hz => .hzh
  | a => a

/-- **C14**. After a magnetic update each element of the arrays that particles read is the average
of the magnetic field before and after the update, at every staggered node.  The column `k = nz-1`
of `H_z` is never updated; there it is needed that the two arrays agreed before. -/
theorem C14_time_centred (G : Geom) (hG : G.Valid) (dt : ℝ) (m m' : Mem Loc)
    (hm : Initialised G m)
    (hlast : ∀ i : ℤ, 0 ≤ i → i < G.nr - 1 →
      fieldsOf m .hzh i (G.nz - 1) = fieldsOf m .hz i (G.nz - 1))
    (hrun : RegionRun (Alloc G) (hRegion G dt) m m') (a : Arr) (ha : a ∈ [Arr.hr, .hphi, .hz])
    (i k : ℤ) (hi : Init G ⟨a, i, k⟩) :
    fieldsOf m' (halfOf a) i k = (fieldsOf m a i k + fieldsOf m' a i k) / 2 := by
  obtain ⟨x, s, r⟩ := hRegion_spec hG dt hm.rep
  rw [← s.sound.2.2 _ hrun] at r
  have h2 : Init G ⟨halfOf a, i, k⟩ := by
    simp only [List.mem_cons, List.not_mem_nil, or_false] at ha
    rcases ha with rfl | rfl | rfl <;> simp only [halfOf, Init, Arr.initRows, Arr.initCols] at * <;>
      exact hi
  rw [r.agree _ _ _ hi, r.agree _ _ _ h2]
  simp only [List.mem_cons, List.not_mem_nil, or_false] at ha
  obtain ⟨b1, b2, b3, b4⟩ := hi
  rcases ha with rfl | rfl | rfl <;> simp only [Arr.initRows, Arr.initCols] at b1 b2 b3 b4 <;>
    simp only [halfOf, hStep]
  · rw [if_pos (by simp only [Box]; omega), if_pos (by simp only [Box]; omega)]; ring
  · rw [if_pos (by simp only [Box]; omega), if_pos (by simp only [Box]; omega)]; ring
  · by_cases hk : k < G.nz - 1
    · rw [if_pos (by simp only [Box]; omega), if_pos (by simp only [Box]; omega)]; ring
    · have : k = G.nz - 1 := by omega
      subst this
      rw [if_neg (by simp only [Box]; omega), if_neg (by simp only [Box]; omega), hlast i b1 b2]
      ring

/-- **C14** for the run loop: the side condition of `C14_time_centred` holds in every state a run
reaches, so in every step the particles see the time-centred field. -/
theorem C14_time_centred_run (G : Geom) (hG : G.Valid) (dt : ℝ) (tbl : ℤ → ℤ → Option ℝ)
    (calls : ℕ → List JCall) (hc : CallsOk G calls) (m0 m mh : Mem Loc) (h0 : Started G tbl m0)
    (n : ℕ) (hrun : FieldRun G dt calls n m0 m) (hh : RegionRun (Alloc G) (hRegion G dt) m mh)
    (a : Arr) (ha : a ∈ [Arr.hr, .hphi, .hz]) (i k : ℤ) (hi : Init G ⟨a, i, k⟩) :
    fieldsOf mh (halfOf a) i k = (fieldsOf m a i k + fieldsOf mh a i k) / 2 := by
  have r := run_rep hG hc (h0.rep hG) hrun
  refine C14_time_centred G hG dt m mh r.initialised ?_ hh a ha i k hi
  intro i h1 h2
  have n2 := hG.nz_ge
  rw [agree_at r.agree .hzh i _ (by rng) (by rng) (by rng) (by rng),
    agree_at r.agree .hz i _ (by rng) (by rng) (by rng) (by rng)]
  clear hrun hh r hi
  induction n with
  | zero => rfl
  | succ n ih =>
    have e : ∀ a, a = .hz ∨ a = .hzh → ∀ F : Fields, ∀ x y z : Grid,
        fStep G dt x y z F a i (G.nz - 1) = F a i (G.nz - 1) := by
      intro a ha F x y z
      rcases ha with rfl | rfl <;> simp only [fStep, eStep, withJ, hStep] <;>
        rw [if_neg (by simp only [Box]; omega)]
    simp only [fRun]
    rw [e _ (Or.inr rfl), e _ (Or.inl rfl), ih]

/-! ## C15: superposition -/

/-- field and current components, as opposed to materials -/
def Arr.isField (a : Arr) : Prop := a ≠ .eps ∧ a ≠ .sig

/-- memory `m3` holds `x` times `m1` plus `y` times `m2`, with the same materials in all three -/
structure Combination (G : Geom) (x y : ℝ) (m1 m2 m3 : Mem Loc) : Prop where
  field : ∀ a i k, a.isField → Init G ⟨a, i, k⟩ →
    fieldsOf m3 a i k = x * fieldsOf m1 a i k + y * fieldsOf m2 a i k
  eps1 : ∀ i k, Box 0 G.nr 0 G.nz i k → fieldsOf m1 .eps i k = fieldsOf m3 .eps i k
  eps2 : ∀ i k, Box 0 G.nr 0 G.nz i k → fieldsOf m2 .eps i k = fieldsOf m3 .eps i k
  sig1 : ∀ i k, Box 0 G.nr 0 G.nz i k → fieldsOf m1 .sig i k = fieldsOf m3 .sig i k
  sig2 : ∀ i k, Box 0 G.nr 0 G.nz i k → fieldsOf m2 .sig i k = fieldsOf m3 .sig i k

/-- **C15**. A full step of a combination of two states, driven by the same combination of
currents, gives the combination of the stepped states. -/
theorem C15_superposition (G : Geom) (hG : G.Valid) (dt x y : ℝ) (c1 c2 c3 : List JCall)
    (hc1 : ∀ c ∈ c1, c.Ok G) (hc2 : ∀ c ∈ c2, c.Ok G) (hc3 : ∀ c ∈ c3, c.Ok G)
    (hcc : ∀ a i k, callSum c3 a i k = x * callSum c1 a i k + y * callSum c2 a i k)
    (m1 m2 m3 m1' m2' m3' : Mem Loc) (i1 : Initialised G m1) (i2 : Initialised G m2)
    (i3 : Initialised G m3) (h : Combination G x y m1 m2 m3)
    (s1 : FieldStep G dt c1 m1 m1') (s2 : FieldStep G dt c2 m2 m2') (s3 : FieldStep G dt c3 m3 m3') :
    Combination G x y m1' m2' m3' := by
  have n1 := hG.nr_ge
  have n2 := hG.nz_ge
  obtain ⟨-, q1, -, u1, r1, -⟩ := fieldStep_spec hG dt hc1 i1.rep
  obtain ⟨-, q2, -, u2, r2, -⟩ := fieldStep_spec hG dt hc2 i2.rep
  obtain ⟨-, q3, -, u3, r3, -⟩ := fieldStep_spec hG dt hc3 i3.rep
  rw [← u1 _ s1] at r1
  rw [← u2 _ s2] at r2
  rw [← u3 _ s3] at r3
  obtain ⟨-, -, t1⟩ := step_initialised hG hc1 i1 s1
  obtain ⟨-, -, t2⟩ := step_initialised hG hc2 i2 s2
  obtain ⟨-, -, t3⟩ := step_initialised hG hc3 i3 s3
  refine ⟨?_, ?_, ?_, ?_, ?_⟩
  · intro a i k hf hI
    rw [r1.agree _ _ _ hI, r2.agree _ _ _ hI, r3.agree _ _ _ hI]
    obtain ⟨hfield, e1, e2, g1, g2⟩ := h
    clear t1 t2 t3 s1 s2 s3 u1 u2 u3 r1 r2 r3
    generalize fieldsOf m1 = F1 at *
    generalize fieldsOf m2 = F2 at *
    generalize fieldsOf m3 = F3 at *
    -- the magnetic step is a combination on all staggered nodes
    have H : ∀ a i k, a.isField → Init G ⟨a, i, k⟩ →
        hStep G dt F3 a i k = x * hStep G dt F1 a i k + y * hStep G dt F2 a i k := by
      intro a i k hf hI
      have hI' := hI
      simp only [Init] at hI'
      cases a <;> simp only [Arr.initRows, Arr.initCols] at hI' <;> simp only [hStep] <;>
        try exact hfield _ i k hf hI
      · by_cases hb : Box 0 G.nr 0 (G.nz - 1) i k
        · simp only [if_pos hb, alphaR]
          rw [hfield .hr i k (by simp [Arr.isField]) (by simp only [Init]; rng),
            hfield .ephi i k (by simp [Arr.isField]) (by simp only [Init]; rng),
            hfield .ephi i (k + 1) (by simp [Arr.isField]) (by simp only [Init]; rng)]
          ring
        · simp only [if_neg hb]; exact hfield _ i k hf hI
      · by_cases hb : Box 0 (G.nr - 1) 0 (G.nz - 1) i k
        · simp only [if_pos hb, alphaPhi]
          rw [hfield .hphi i k (by simp [Arr.isField]) (by simp only [Init]; rng),
            hfield .ez i k (by simp [Arr.isField]) (by simp only [Init]; rng),
            hfield .ez (i + 1) k (by simp [Arr.isField]) (by simp only [Init]; rng),
            hfield .er i k (by simp [Arr.isField]) (by simp only [Init]; rng),
            hfield .er i (k + 1) (by simp [Arr.isField]) (by simp only [Init]; rng)]
          ring
        · simp only [if_neg hb]; exact hfield _ i k hf hI
      · by_cases hb : Box 0 (G.nr - 1) 0 (G.nz - 1) i k
        · simp only [if_pos hb, alphaZ]
          rw [hfield .hz i k (by simp [Arr.isField]) (by simp only [Init]; rng),
            hfield .ephi i k (by simp [Arr.isField]) (by simp only [Init]; rng),
            hfield .ephi (i + 1) k (by simp [Arr.isField]) (by simp only [Init]; rng)]
          ring
        · simp only [if_neg hb]; exact hfield _ i k hf hI
      · by_cases hb : Box 0 G.nr 0 (G.nz - 1) i k
        · simp only [if_pos hb, alphaR]
          rw [hfield .hr i k (by simp [Arr.isField]) (by simp only [Init]; rng),
            hfield .ephi i k (by simp [Arr.isField]) (by simp only [Init]; rng),
            hfield .ephi i (k + 1) (by simp [Arr.isField]) (by simp only [Init]; rng)]
          ring
        · simp only [if_neg hb]; exact hfield _ i k hf hI
      · by_cases hb : Box 0 (G.nr - 1) 0 (G.nz - 1) i k
        · simp only [if_pos hb, alphaPhi]
          rw [hfield .hphi i k (by simp [Arr.isField]) (by simp only [Init]; rng),
            hfield .ez i k (by simp [Arr.isField]) (by simp only [Init]; rng),
            hfield .ez (i + 1) k (by simp [Arr.isField]) (by simp only [Init]; rng),
            hfield .er i k (by simp [Arr.isField]) (by simp only [Init]; rng),
            hfield .er i (k + 1) (by simp [Arr.isField]) (by simp only [Init]; rng)]
          ring
        · simp only [if_neg hb]; exact hfield _ i k hf hI
      · by_cases hb : Box 0 (G.nr - 1) 0 (G.nz - 1) i k
        · simp only [if_pos hb, alphaZ]
          rw [hfield .hz i k (by simp [Arr.isField]) (by simp only [Init]; rng),
            hfield .ephi i k (by simp [Arr.isField]) (by simp only [Init]; rng),
            hfield .ephi (i + 1) k (by simp [Arr.isField]) (by simp only [Init]; rng)]
          ring
        · simp only [if_neg hb]; exact hfield _ i k hf hI
    -- the states the electric update starts from
    set W1 := withJ (hStep G dt F1) (callSum c1 .jr) (callSum c1 .jphi) (callSum c1 .jz) with hW1
    set W2 := withJ (hStep G dt F2) (callSum c2 .jr) (callSum c2 .jphi) (callSum c2 .jz) with hW2
    set W3 := withJ (hStep G dt F3) (callSum c3 .jr) (callSum c3 .jphi) (callSum c3 .jz) with hW3
    have W : ∀ a i k, a.isField → Init G ⟨a, i, k⟩ →
        W3 a i k = x * W1 a i k + y * W2 a i k := by
      intro a i k hf hI
      have := H a i k hf hI
      cases a <;> first | exact this | exact hcc _ i k
    have kE1 : ∀ i k, Box 0 G.nr 0 G.nz i k → kE dt W1 i k = kE dt W3 i k ∧
        kH dt W1 i k = kH dt W3 i k ∧ kE dt W2 i k = kE dt W3 i k ∧
        kH dt W2 i k = kH dt W3 i k := by
      intro i k hb
      have a1 : W1 .eps i k = W3 .eps i k := e1 i k hb
      have a2 : W2 .eps i k = W3 .eps i k := e2 i k hb
      have b1 : W1 .sig i k = W3 .sig i k := g1 i k hb
      have b2 : W2 .sig i k = W3 .sig i k := g2 i k hb
      unfold kE kH
      rw [a1, a2, b1, b2]
      exact ⟨rfl, rfl, rfl, rfl⟩
    show eStep G dt W3 a i k = x * eStep G dt W1 a i k + y * eStep G dt W2 a i k
    have hI' := hI
    simp only [Init] at hI'
    cases a <;> simp only [Arr.initRows, Arr.initCols] at hI' <;> simp only [eStep] <;>
      try exact W _ i k hf hI
    · split_ifs with hb
      · obtain ⟨p1, p2, p3, p4⟩ := kE1 i k (by rng)
        unfold newEr
        rw [p1, p2, p3, p4, W .er i k hf hI,
          W .jr i k (by simp [Arr.isField]) (by simp only [Init]; rng),
          W .hphi i k (by simp [Arr.isField]) (by simp only [Init]; rng),
          W .hphi i (k - 1) (by simp [Arr.isField]) (by simp only [Init]; rng)]
        ring
      · exact W _ i k hf hI
    · split_ifs with hb
      · obtain ⟨p1, p2, p3, p4⟩ := kE1 i k (by rng)
        unfold newEphi
        rw [p1, p2, p3, p4, W .ephi i k hf hI,
          W .jphi i k (by simp [Arr.isField]) (by simp only [Init]; rng),
          W .hr i k (by simp [Arr.isField]) (by simp only [Init]; rng),
          W .hr i (k - 1) (by simp [Arr.isField]) (by simp only [Init]; rng),
          W .hz i k (by simp [Arr.isField]) (by simp only [Init]; rng),
          W .hz (i - 1) k (by simp [Arr.isField]) (by simp only [Init]; rng)]
        ring
      · exact W _ i k hf hI
    · split_ifs with hb hb2
      · obtain ⟨p1, p2, p3, p4⟩ := kE1 i k (by rng)
        unfold newEz0
        rw [p1, p2, p3, p4, W .ez i k hf hI,
          W .jz i k (by simp [Arr.isField]) (by simp only [Init]; rng),
          W .hphi i k (by simp [Arr.isField]) (by simp only [Init]; rng)]
        ring
      · obtain ⟨p1, p2, p3, p4⟩ := kE1 i k (by rng)
        unfold newEz
        rw [p1, p2, p3, p4, W .ez i k hf hI,
          W .jz i k (by simp [Arr.isField]) (by simp only [Init]; rng),
          W .hphi i k (by simp [Arr.isField]) (by simp only [Init]; rng),
          W .hphi (i - 1) k (by simp [Arr.isField]) (by simp only [Init]; rng)]
        ring
      · exact W _ i k hf hI
  · intro i k hb; rw [(t1 i k hb).1, (t3 i k hb).1]; exact h.eps1 i k hb
  · intro i k hb; rw [(t2 i k hb).1, (t3 i k hb).1]; exact h.eps2 i k hb
  · intro i k hb; rw [(t1 i k hb).2, (t3 i k hb).2]; exact h.sig1 i k hb
  · intro i k hb; rw [(t2 i k hb).2, (t3 i k hb).2]; exact h.sig2 i k hb

/-! ## C47: currents are per step -/

/-- **C47**. After a step the current arrays hold, at every node, exactly the sum of the increments
of that step, whatever the history was. -/
theorem C47_currents_per_step (G : Geom) (hG : G.Valid) (dt : ℝ) (calls : List JCall)
    (hc : ∀ c ∈ calls, c.Ok G) (m m' : Mem Loc) (hm : Initialised G m)
    (hs : FieldStep G dt calls m m') (a : Arr) (ha : a ∈ [Arr.jr, .jphi, .jz]) (i k : ℤ)
    (hb : Box 0 G.nr 0 G.nz i k) : m' ⟨a, i, k⟩ = some (callSum calls a i k) := by
  obtain ⟨-, q, -, u, -, fj⟩ := fieldStep_spec hG dt hc hm.rep
  rw [← u _ hs] at fj
  simp only [List.mem_cons, List.not_mem_nil, or_false] at ha
  exact fj a i k ha hb

/-- Two states with the same electromagnetic fields and different leftover currents lead to the
same fields: the electric update sees only the currents of its own step. -/
theorem C47_history_independent (G : Geom) (hG : G.Valid) (dt : ℝ) (calls : List JCall)
    (hc : ∀ c ∈ calls, c.Ok G) (m1 m2 m1' m2' : Mem Loc) (i1 : Initialised G m1)
    (i2 : Initialised G m2)
    (hsame : ∀ l : Loc, l.arr ∉ [Arr.jr, .jphi, .jz] → m1 l = m2 l)
    (s1 : FieldStep G dt calls m1 m1') (s2 : FieldStep G dt calls m2 m2') :
    ∀ l, Init G l → m1' l = m2' l := by
  obtain ⟨-, q1, -, u1, r1, -⟩ := fieldStep_spec hG dt hc i1.rep
  obtain ⟨-, q2, -, u2, r2, -⟩ := fieldStep_spec hG dt hc i2.rep
  rw [← u1 _ s1] at r1
  rw [← u2 _ s2] at r2
  intro l hl
  rw [r1 l hl, r2 l hl]
  have hF : ∀ a, a ∉ [Arr.jr, .jphi, .jz] → fieldsOf m1 a = fieldsOf m2 a := by
    intro a ha; funext i k; unfold fieldsOf; rw [hsame ⟨a, i, k⟩ ha]
  generalize fieldsOf m1 = F1 at *
  generalize fieldsOf m2 = F2 at *
  have hh : ∀ j1 j2 j3, withJ (hStep G dt F1) j1 j2 j3 = withJ (hStep G dt F2) j1 j2 j3 := by
    intro j1 j2 j3
    funext a i k
    cases a <;> simp only [withJ, hStep, alphaR, alphaPhi, alphaZ] <;>
      simp only [hF .hr (by simp), hF .hphi (by simp), hF .hz (by simp), hF .hrh (by simp),
        hF .hphih (by simp), hF .hzh (by simp), hF .er (by simp), hF .ephi (by simp),
        hF .ez (by simp), hF .eps (by simp), hF .sig (by simp)]
  unfold fStep
  rw [hh]

/-! ## Concrete cases meeting the hypotheses -/

/-- A non-trivial field state of `demoGeom` (3 x 4 nodes) that meets the wall conditions: `E_r = 1`
between the plane walls, `E_z = 2` inside the pipe, `H_phi = 3`, `H_z = 5`, vacuum. -/
noncomputable def demoFields : Fields
  | .er, _, k => if k = 0 ∨ k = 3 then 0 else 1
  | .ez, i, _ => if i = 2 then 0 else 2
  | .hphi, _, _ => 3
  | .hz, _, _ => 5
  | .hzh, _, _ => 5
  | .eps, _, _ => 1
  | _, _, _ => 0

/-- memory holding `demoFields` -/
noncomputable def demoMem : Mem Loc := fun l => some (demoFields l.arr l.i l.k)

theorem demoMem_initialised : Initialised demoGeom demoMem := fun _ _ => rfl

theorem demoMem_fields : fieldsOf demoMem = demoFields := rfl

theorem demoMem_wall : WallE demoGeom (fieldsOf demoMem) := by
  constructor <;> intros <;> simp [fieldsOf, demoMem, demoFields, demoGeom]

/-- increments of a step that carry current -/
noncomputable def demoCalls : List JCall := [⟨.jr, 1, 2, 7⟩, ⟨.jz, 0, 1, -4⟩, ⟨.jr, 1, 2, 1⟩, ⟨.jphi, 2, 3, 9⟩]

theorem demoCalls_ok : ∀ c ∈ demoCalls, c.Ok demoGeom := by
  intro c hc
  simp only [demoCalls, List.mem_cons, List.not_mem_nil, or_false] at hc
  rcases hc with rfl | rfl | rfl | rfl <;> simp [JCall.Ok, demoGeom]

/-- C12, C47: a step with these deposits exists and puts their sum into the current. -/
example : ∃ m', FieldStep demoGeom 1 demoCalls demoMem m' ∧ m' ⟨.jr, 1, 2⟩ = some 8 := by
  obtain ⟨m', h, -⟩ := C12_step_schedule_independent demoGeom demoGeom_valid 1 demoCalls
    demoCalls_ok demoMem demoMem_initialised
  refine ⟨m', h, ?_⟩
  rw [C47_currents_per_step demoGeom demoGeom_valid 1 demoCalls demoCalls_ok demoMem m'
    demoMem_initialised h .jr (by simp) 1 2 (by norm_num [demoGeom, Box])]
  simp [demoCalls]
  norm_num

/-- C13, C08, C09, C14: a started memory and runs of every length exist. -/
example (n : ℕ) : ∃ m0 m, Started demoGeom (fun _ _ => some 0) m0 ∧
    FieldRun demoGeom 1 (fun _ => demoCalls) n m0 m ∧ WallE demoGeom (fieldsOf m) := by
  obtain ⟨-, -, m0, h0⟩ := C13_setup_safe demoGeom demoGeom_valid (fun _ _ => some 0) (fun _ => none)
  have hc : CallsOk demoGeom (fun _ => demoCalls) := fun _ => demoCalls_ok
  have : ∃ m, FieldRun demoGeom 1 (fun _ => demoCalls) n m0 m := by
    induction n with
    | zero => exact ⟨m0, .zero m0⟩
    | succ n ih =>
      obtain ⟨m, h⟩ := ih
      exact (C13_run_safe demoGeom demoGeom_valid 1 _ _ hc m0 m h0 n h).2
  obtain ⟨m, h⟩ := this
  exact ⟨m0, m, h0, h, C09_walls_run demoGeom demoGeom_valid 1 _ _ hc m0 m h0 n h⟩

/-- C08: a history with a magnetic update of a non-zero field. -/
example : ∃ m', HHistory demoGeom demoMem m' ∧ RegionRun (Alloc demoGeom) (hRegion demoGeom 1)
    demoMem m' := by
  obtain ⟨-, m', h, -⟩ := C12_updates_schedule_independent demoGeom demoGeom_valid 1 demoMem
    demoMem_initialised (hRegion demoGeom 1) (by simp)
  exact ⟨m', .update _ _ _ 1 (.refl _) (fun i h1 h2 => demoMem_wall.phi_right i h1 h2) h, h⟩

/-- C10: currents and charge densities in continuity, with charge really moving: `j_z` leaves node
`(1,1)` for node `(1,2)`.  (`C49` combines C10 with the currents of moving particles.) -/
example : Continuity demoGeom 1
    (fun a b => if a = 1 ∧ b = 1 then 6 else 0) (fun a b => if a = 1 ∧ b = 2 then 6 else 0)
    (callSum [] .jr) (callSum [⟨.jz, 1, 1, 6⟩] .jz) := by
  intro a b _
  have e : netOutflow demoGeom (callSum [] .jr) (callSum [⟨.jz, 1, 1, 6⟩] .jz) a b =
      nodeVolume demoGeom a * ((if a = 1 ∧ b = 1 then 6 else 0) - (if a = 1 ∧ b = 2 then 6 else 0)) := by
    unfold netOutflow
    have h1 : (1 = a ∧ 1 = b - 1) ↔ (a = 1 ∧ b = 2) := by omega
    have h2 : (1 = a ∧ 1 = b) ↔ (a = 1 ∧ b = 1) := by omega
    simp [demoGeom, h1, h2]
  rw [e]; ring

/-- C11: the hypotheses hold for `demoMem`, whose energy is positive before any step. -/
example : (∀ i k, Box 0 demoGeom.nr 0 demoGeom.nz i k → 0 < fieldsOf demoMem .eps i k) ∧
    (∀ i k, Box 0 demoGeom.nr 0 demoGeom.nz i k → 0 ≤ fieldsOf demoMem .sig i k) ∧
    ∃ mh m', RegionRun (Alloc demoGeom) (hRegion demoGeom 1) demoMem mh ∧
      FieldRun demoGeom 1 (fun _ => []) 1 demoMem m' := by
  refine ⟨fun _ _ _ => by simp [fieldsOf, demoMem, demoFields],
    fun _ _ _ => by simp [fieldsOf, demoMem, demoFields], ?_⟩
  obtain ⟨-, mh, h, -⟩ := C12_updates_schedule_independent demoGeom demoGeom_valid 1 demoMem
    demoMem_initialised (hRegion demoGeom 1) (by simp)
  obtain ⟨m', h', -⟩ := C12_step_schedule_independent demoGeom demoGeom_valid 1 []
    (by simp) demoMem demoMem_initialised
  exact ⟨mh, m', h, .succ 0 _ _ _ (.zero _) h'⟩

/-- C15: three states in linear combination, 2 times `demoMem` minus 3 times uniform fields. -/
example : Combination demoGeom 2 (-3) demoMem (fun l => some (if l.arr = .sig then 0 else 1))
    (fun l => some (match l.arr with
      | .eps => 1 | .sig => 0 | a => 2 * demoFields a l.i l.k - 3)) := by
  constructor
  · intro a i k hf _
    cases a <;> simp [fieldsOf, demoMem] <;>
      first | exact absurd rfl hf.1 | exact absurd rfl hf.2 | ring
  all_goals intro i k _; simp [fieldsOf, demoMem, demoFields]

end Verif
