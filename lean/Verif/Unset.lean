import Verif.RunSafe
import Verif.ProbeProps

/-!
# Which elements of the field arrays are ever set (C77)

The arrays have more elements than the staggered grid has nodes.  Nothing sets the others, but the
probes can write them out and the interpolation can read them.
-/

namespace Verif

/-! ## Frame property of parallel regions -/

section
variable {L ι : Type} [DecidableEq L] [DecidableEq ι] {alloc : L → Prop}

theorem pool_frame {s t : PoolState L ι} (h : PoolReach alloc s t) {l : L}
    (hl : ∀ i, ¬ (s.1 i).MayStore l) : t.2 l = s.2 l ∧ ∀ i, ¬ (t.1 i).MayStore l := by
  induction h with
  | refl => exact ⟨rfl, hl⟩
  | tail _ hs ih =>
    obtain ⟨e, hn⟩ := ih
    cases hs with
    | load P m i x k v hP ha hm =>
      refine ⟨e, fun j => ?_⟩
      by_cases hj : j = i
      · subst hj
        have := hn j
        dsimp only at this ⊢
        rw [hP] at this
        rw [Function.update_self]
        exact fun hc => this ⟨v, hc⟩
      · dsimp only
        rw [Function.update_of_ne hj]; exact hn j
    | store P m i x v k hP ha =>
      have hi := hn i
      dsimp only at hi e ⊢
      rw [hP] at hi
      refine ⟨?_, fun j => ?_⟩
      · rw [Function.update_of_ne (fun hx => hi (Or.inl hx.symm))]; exact e
      · by_cases hj : j = i
        · subst hj
          rw [Function.update_self]
          exact fun hc => hi (Or.inr hc)
        · rw [Function.update_of_ne hj]; exact hn j

/-- A parallel region changes only what one of its iterations may store to. -/
theorem region_frame {R : Region L ι} {m m' : Mem L} (h : RegionRun alloc R m m') {l : L}
    (hl : ∀ P ∈ R, ∀ i, ¬ (P i).MayStore l) : m' l = m l := by
  induction h with
  | nil m => rfl
  | cons P rest m s m' hr hd _ ih =>
    rw [ih fun Q hQ => hl Q (by simp [hQ])]
    exact (pool_frame hr (hl P (by simp))).1

end

/-! ## Specification -/

/-- the current arrays are zeroed and used as a whole -/
def Arr.isCurrent (a : Arr) : Prop := a = .jr ∨ a = .jphi ∨ a = .jz

/-- Only the staggered nodes of the fields, and the currents, have values. -/
def OnlyNodesSet (G : Geom) (m : Mem Loc) : Prop :=
  ∀ l, (m l).isSome → Init G l ∨ Arr.isCurrent l.arr

/-- What a probe of the array `a` writes out: `none` if one of the elements was never set (or is
outside the array).  `LoadInitParam::dump_data`, src/loadInitParam.cpp:327-415, with
src/probePlain.cpp:76-153. -/
def probeReads (G : Geom) (m : Mem Loc) (a : Arr) (p : ProbeCfg) : Option (List ℝ) :=
  p.cells.mapM fun c => if Alloc G ⟨a, c.1, c.2⟩ then m ⟨a, c.1, c.2⟩ else none

/-- the probe's window (specification) -/
def ProbeCfg.Shows (p : ProbeCfg) (i k : ℤ) : Prop :=
  match p.kind with
  | .frame => p.start_r ≤ i ∧ i < p.end_r ∧ p.start_z ≤ k ∧ k < p.end_z
  | .col => p.start_r ≤ i ∧ i < p.end_r ∧ k = p.start_z
  | .row => i = p.start_r ∧ p.start_z ≤ k ∧ k < p.end_z
  | .dot => i = p.start_r ∧ k = p.start_z

/-! ## Stores of the loops -/

/-- proof script: all stores of a loop go to nodes or currents -/
macro "stays" : tactic => `(tactic| (
  rintro ⟨t1, t2⟩ l h
  simp only [par2, parI, parK] at h
  split_ifs at h <;>
    simp [hrBody, hphiBody, hzBody, erAxisBody, ezAxisBody, eInnerBody, ezWallBody, erStore, ephiStore,
      ezStore, Prog.rd, Prog.wr, Prog.MayStore] at h
  (try casesm* _ ∨ _) <;> subst_vars <;>
    simp [Init, Arr.isCurrent, Arr.initRows, Arr.initCols] <;> first | done | omega))

/-- all stores go to nodes or currents -/
def Stays (G : Geom) (R : Region Loc (ℤ × ℤ)) : Prop :=
  ∀ P ∈ R, ∀ t l, (P t).MayStore l → Init G l ∨ Arr.isCurrent l.arr

theorem Stays.nil (G : Geom) : Stays G [] := fun P hP => by cases hP

theorem Stays.cons {G : Geom} {P : YeeLoop} {R : Region Loc (ℤ × ℤ)}
    (h : ∀ t l, (P t).MayStore l → Init G l ∨ Arr.isCurrent l.arr) (hR : Stays G R) :
    Stays G (P :: R) := by
  intro Q hQ
  rcases List.mem_cons.1 hQ with rfl | hQ
  exacts [h, hR Q hQ]

theorem Stays.append {G : Geom} {R R' : Region Loc (ℤ × ℤ)} (h : Stays G R) (h' : Stays G R') :
    Stays G (R ++ R') := by
  intro Q hQ
  rcases List.mem_append.1 hQ with hQ | hQ
  exacts [h Q hQ, h' Q hQ]

theorem hRegion_stays {G : Geom} (hG : G.Valid) (dt : ℝ) : Stays G (hRegion G dt) := by
  have h1 := hG.nr_ge
  have h2 := hG.nz_ge
  refine .cons ?_ (.cons ?_ (.cons ?_ (.cons ?_ (.nil G)))) <;> stays

theorem eRegion_stays {G : Geom} (hG : G.Valid) (dt : ℝ) : Stays G (eRegion G dt) := by
  have h1 := hG.nr_ge
  have h2 := hG.nz_ge
  refine .cons ?_ (.cons ?_ (.cons ?_ (.cons ?_ (.nil G)))) <;> stays

theorem resetJ_stays (G : Geom) : Stays G (resetJRegion G) := by
  refine .cons ?_ (.nil G) ; stays

theorem setup_stays {G : Geom} (hG : G.Valid) : Stays G (setupRegion G) := by
  have h1 := hG.nr_ge
  have h2 := hG.nz_ge
  unfold setupRegion
  refine .append (.append (.append (.append (.append (.append ?_ ?_) ?_) ?_) ?_) ?_) ?_
  · refine .cons ?_ (.nil G) ; stays
  · refine .cons ?_ (.nil G) ; stays
  · refine .cons ?_ (.cons ?_ (.nil G)) <;> stays
  · refine .cons ?_ (.cons ?_ (.cons ?_ (.cons ?_ (.nil G)))) <;> stays
  · refine .cons ?_ (.nil G) ; stays
  · refine .cons ?_ (.cons ?_ (.cons ?_ (.nil G))) <;> stays
  · refine .cons ?_ (.cons ?_ (.cons ?_ (.cons ?_ (.cons ?_ (.nil G))))) <;> stays

theorem pml_stays (G : Geom) (tbl : ℤ → ℤ → Option ℝ) : Stays G (pmlRegion G tbl) := by
  refine .cons ?_ (.nil G)
  rintro ⟨t1, t2⟩ l h
  simp only [par2] at h
  split_ifs at h
  · cases ht : tbl t1 t2 with
    | none => rw [ht] at h; simp [Prog.MayStore] at h
    | some v =>
      rw [ht] at h; simp [Prog.wr, Prog.MayStore] at h
      subst h; simp [Init, Arr.initRows, Arr.initCols]; omega
  · simp [Prog.MayStore] at h

theorem OnlyNodesSet.region {G : Geom} {R : Region Loc (ℤ × ℤ)} (hR : Stays G R) {m m' : Mem Loc}
    (h : RegionRun (Alloc G) R m m') (hm : OnlyNodesSet G m) : OnlyNodesSet G m' := by
  intro l hl
  by_contra hcon
  rw [region_frame h (fun P hP i hst => hcon (hR P hP i l hst))] at hl
  exact hcon (hm l hl)

theorem incsMem_other {G : Geom} : ∀ {l : List JCall} {m m' : Mem Loc}, incsMem G l m = some m' →
    (∀ c ∈ l, Arr.isCurrent c.arr) → ∀ x : Loc, ¬ Arr.isCurrent x.arr → m' x = m x := by
  intro l
  induction l with
  | nil => intro m m' h _ x _; cases h; rfl
  | cons c l ih =>
    intro m m' h hc x hx
    unfold incsMem at h
    rw [List.foldlM_cons, Option.bind_eq_bind] at h
    obtain ⟨m1, h1, h2⟩ := Option.bind_eq_some_iff.1 h
    rw [ih h2 (fun c hc' => hc c (by simp [hc'])) x hx]
    unfold incMem at h1
    split_ifs at h1
    obtain ⟨v, -, rfl⟩ := Option.map_eq_some_iff.1 h1
    rw [Function.update_of_ne]
    rintro rfl
    exact hx (hc c (by simp))

theorem seqCalls_current {f : Particle → Option (List JCall)}
    (hf : ∀ p l, f p = some l → ∀ c ∈ l, Arr.isCurrent c.arr) : ∀ {ps : List Particle} {l : List JCall},
    seqCalls (ps.map f) = some l → ∀ c ∈ l, Arr.isCurrent c.arr := by
  intro ps
  induction ps with
  | nil => intro l h; cases h; simp
  | cons p ps ih =>
    intro l h
    simp only [List.map_cons, seqCalls] at h
    obtain ⟨l1, h1, h2⟩ := Option.bind_eq_some_iff.1 h
    obtain ⟨l2, h3, rfl⟩ := Option.map_eq_some_iff.1 h2
    intro c hc
    rcases List.mem_append.1 hc with hc | hc
    exacts [hf p l1 h1 c hc, ih h3 c hc]

theorem azimuthalCalls_current {G : Geom} (p : Particle) (l : List JCall)
    (h : azimuthalCalls G p = some l) : ∀ c ∈ l, Arr.isCurrent c.arr := by
  unfold azimuthalCalls at h
  split_ifs at h
  · obtain ⟨d, -, rfl⟩ := Option.map_eq_some_iff.1 h
    intro c hc
    obtain ⟨x, -, rfl⟩ := List.mem_map.1 hc
    exact Or.inr (Or.inl rfl)
  · cases h; simp

theorem moveCalls_current {G : Geom} {dt : ℝ} (p : Particle) (l : List JCall)
    (h : moveCalls G dt p = some l) : ∀ c ∈ l, Arr.isCurrent c.arr := by
  unfold moveCalls at h
  split_ifs at h
  · obtain ⟨d, -, rfl⟩ := Option.map_eq_some_iff.1 h
    intro c hc
    rcases List.mem_append.1 hc with hc | hc <;> obtain ⟨x, -, rfl⟩ := List.mem_map.1 hc
    exacts [Or.inl rfl, Or.inr (Or.inr rfl)]
  · cases h; simp

theorem fullCurrentAll_other {G : Geom} {dt : ℝ} {S S' : List Species} {m m' : Mem Loc}
    (h : FullCurrentAll G dt S m S' m') (x : Loc) (hx : ¬ Arr.isCurrent x.arr) : m' x = m x := by
  induction h with
  | nil m => rfl
  | cons h _ ih =>
    obtain ⟨la, lc, ma, moved, e1, e2, -, e4, e5, -⟩ := h
    rw [ih, incsMem_other e5 (seqCalls_current moveCalls_current e4) x hx,
      incsMem_other e2 (seqCalls_current azimuthalCalls_current e1) x hx]

theorem OnlyNodesSet.cycle {G : Geom} (hG : G.Valid) {mode : PusherMode} {dt : ℝ} {m m' : Mem Loc}
    {S S' : List Species} (hc : Cycle G mode dt m S m' S') (hm : OnlyNodesSet G m) :
    OnlyNodesSet G m' := by
  obtain ⟨m1, m2, m3, S1, r1, r2, -, r4, r5⟩ := hc
  have h2 := (hm.region (hRegion_stays hG dt) r1).region (resetJ_stays G) r2
  have h3 : OnlyNodesSet G m3 := by
    intro l hl
    by_cases hx : Arr.isCurrent l.arr
    · exact Or.inr hx
    · rw [fullCurrentAll_other r4 l hx] at hl; exact h2 l hl
  exact h3.region (eRegion_stays hG dt) r5

/-! ## C77 -/

/-- A simulation from its set-up: the arrays are allocated unset, set up, and `n` cycles are made. -/
def SimReaches (G : Geom) (mode : PusherMode) (dt : ℝ) (tbl : ℤ → ℤ → Option ℝ)
    (inject : ℕ → List Species → List Species) (S0 : List Species) (n : ℕ) (m : Mem Loc)
    (S : List Species) : Prop :=
  ∃ m1 m0, RegionRun (Alloc G) (setupRegion G) (fun _ => none) m1 ∧
    RegionRun (Alloc G) (pmlRegion G tbl) m1 m0 ∧ Reaches G mode dt inject n m0 S0 m S

/-- **C77** In a simulation, whatever the schedules, nothing beyond the nodes of the staggered grid
(and the currents) ever gets a value. -/
theorem C77_only_nodes_set (G : Geom) (hG : G.Valid) (mode : PusherMode) (dt : ℝ)
    (tbl : ℤ → ℤ → Option ℝ) (inject : ℕ → List Species → List Species) (S0 S : List Species) (n : ℕ)
    (m : Mem Loc) (h : SimReaches G mode dt tbl inject S0 n m S) : OnlyNodesSet G m := by
  obtain ⟨m1, m0, r1, r2, hr⟩ := h
  have h0 : OnlyNodesSet G m0 := OnlyNodesSet.region (pml_stays G tbl) r2
    (OnlyNodesSet.region (setup_stays hG) r1 fun l hl => by cases hl)
  clear r1 r2
  induction hr with
  | start m S => exact h0
  | step _ c ih => exact (ih h0).cycle hG c

theorem shows_cells (p : ProbeCfg) (i k : ℤ) : (i, k) ∈ p.cells ↔ p.Shows i k := by
  unfold ProbeCfg.cells ProbeCfg.Shows
  cases p.kind with
  | frame =>
    simp only [List.mem_flatMap, List.mem_map, mem_intRange, Prod.mk.injEq]
    constructor
    · rintro ⟨x, hx, y, hy, rfl, rfl⟩; exact ⟨hx.1, hx.2, hy.1, hy.2⟩
    · rintro ⟨h1, h2, h3, h4⟩; exact ⟨i, ⟨h1, h2⟩, k, ⟨h3, h4⟩, rfl, rfl⟩
  | col =>
    simp only [List.mem_map, mem_intRange, Prod.mk.injEq]
    constructor
    · rintro ⟨x, hx, rfl, rfl⟩; exact ⟨hx.1, hx.2, rfl⟩
    · rintro ⟨h1, h2, h3⟩; exact ⟨i, ⟨h1, h2⟩, rfl, h3.symm⟩
  | row =>
    simp only [List.mem_map, mem_intRange, Prod.mk.injEq]
    constructor
    · rintro ⟨x, hx, rfl, rfl⟩; exact ⟨rfl, hx.1, hx.2⟩
    · rintro ⟨h3, h1, h2⟩; exact ⟨k, ⟨h1, h2⟩, h3.symm, rfl⟩
  | dot => simp [Prod.ext_iff]

theorem mapM_none {α β : Type} {f : α → Option β} {l : List α} {a : α} (ha : a ∈ l)
    (hf : f a = none) : l.mapM f = none := by
  induction l with
  | nil => cases ha
  | cons b l ih =>
    rw [List.mapM_cons]
    rcases List.mem_cons.1 ha with rfl | ha
    · rw [hf]; rfl
    · rw [ih ha]; cases f b <;> rfl

theorem mapM_some_all {α β : Type} {f : α → Option β} {l : List α} (h : ∀ a ∈ l, (f a).isSome) :
    ∃ bs, l.mapM f = some bs ∧ bs.length = l.length := by
  induction l with
  | nil => exact ⟨[], rfl, rfl⟩
  | cons a l ih =>
    obtain ⟨b, hb⟩ := Option.isSome_iff_exists.1 (h a (by simp))
    obtain ⟨bs, hbs, hl⟩ := ih fun x hx => h x (by simp [hx])
    exact ⟨b :: bs, by rw [List.mapM_cons, hb, hbs]; rfl, by simp [hl]⟩

/-- **C77** A probe of a field whose window has only nodes of the staggered grid writes out set
values, in every state in which the nodes are set (which C76 says of all states of a run). -/
theorem C77_probe_partial (G : Geom) (m : Mem Loc) (hm : Initialised G m) (a : Arr) (p : ProbeCfg)
    (hp : ∀ i k, p.Shows i k → Init G ⟨a, i, k⟩) :
    ∃ v, probeReads G m a p = some v ∧ v.length = p.cells.length := by
  refine mapM_some_all ?_
  rintro ⟨i, k⟩ hc
  have hI := hp i k ((shows_cells p i k).1 hc)
  dsimp only
  rw [if_pos hI.alloc]
  exact hm _ hI

/-- **C77 (violated)** A column probe of `E_r` as the configuration creates it (all rows of the grid,
as in the shipped configuration), writes out an element that was never set: on every grid, at every
time of every run. -/
theorem C77_column_violated (G : Geom) (hG : G.Valid) (mode : PusherMode) (dt : ℝ)
    (tbl : ℤ → ℤ → Option ℝ) (inject : ℕ → List Species → List Species) (S0 S : List Species) (n : ℕ)
    (m : Mem Loc) (h : SimReaches G mode dt tbl inject S0 n m S) (z schedule : ℤ) :
    probeReads G m .er ⟨.col, 0, z, G.nr, -1, schedule⟩ = none := by
  have h1 := hG.nr_ge
  have hset := C77_only_nodes_set G hG mode dt tbl inject S0 S n m h
  refine mapM_none (a := ((G.nr : ℤ) - 1, z)) ((shows_cells _ _ _).2 ⟨?_, ?_, rfl⟩) ?_
  · show (0:ℤ) ≤ (G.nr : ℤ) - 1; omega
  · show (G.nr : ℤ) - 1 < (G.nr : ℤ); omega
  · dsimp only
    split_ifs
    · rw [← Option.not_isSome_iff_eq_none]
      intro hs
      rcases hset _ hs with hI | hI
      · obtain ⟨-, hi, -⟩ := hI
        simp only [Arr.initRows] at hi
        omega
      · simp [Arr.isCurrent] at hI
    · rfl

/-! ## Whole simulations (C76) -/

theorem started_safe {G : Geom} (hG : G.Valid) {tbl : ℤ → ℤ → Option ℝ} {m0 : Mem Loc}
    (h : Started G tbl m0) {S : List Species} (hS : ∀ p ∈ parts S, Ready G p) : SafeState G m0 S := by
  have hr := h.rep hG
  refine ⟨fun l hl => by rw [hr l hl]; rfl, ?_, hS⟩
  intro a i k ha hI
  rw [hr _ hI]
  rcases ha with rfl | rfl | rfl | rfl | rfl <;> rfl

/-- **C76** (whole simulations). From unset arrays: the set-up does not fault, and whatever state is
reached after any number of cycles, the next cycle does not fault and can be completed. -/
theorem C76_simulation_partial (G : Geom) (hG : G.Valid) (hnr : 3 ≤ G.nr) (hnz : 3 ≤ G.nz)
    (mode : PusherMode) (hmode : mode = .borisRelativistic ∨ mode = .vay) (dt : ℝ) (hdt : 0 < dt)
    (hdr : LIGHT_SPEED * dt ≤ G.dr) (hdz : LIGHT_SPEED * dt ≤ G.dz) (tbl : ℤ → ℤ → Option ℝ)
    (inject : ℕ → List Species → List Species)
    (hinj : ∀ n S, (∀ p ∈ parts S, Ready G p) → ∀ p ∈ parts (inject n S), Ready G p)
    (S0 : List Species) (hS0 : ∀ p ∈ parts S0, Ready G p) :
    ¬ RegionFault (Alloc G) (setupRegion G) (fun _ => none) ∧
    (∀ m1, RegionRun (Alloc G) (setupRegion G) (fun _ => none) m1 →
      ¬ RegionFault (Alloc G) (pmlRegion G tbl) m1) ∧
    (∀ n, ∃ m S, SimReaches G mode dt tbl inject S0 n m S) ∧
    ∀ n m S, SimReaches G mode dt tbl inject S0 n m S →
      ¬ CycleFault G mode dt m (inject n S) ∧
      ∃ m' S', Cycle G mode dt m (inject n S) m' S' ∧
        SimReaches G mode dt tbl inject S0 (n + 1) m' S' := by
  obtain ⟨f1, f2, -⟩ := C13_setup_safe G hG tbl (fun _ => none)
  obtain ⟨x, s1, q1⟩ := setup_spec hG (fun _ => none)
  obtain ⟨y, s2, -⟩ := pml_spec tbl q1
  have hx : ∀ n m S, SimReaches G mode dt tbl inject S0 n m S →
      ¬ CycleFault G mode dt m (inject n S) ∧
      ∃ m' S', Cycle G mode dt m (inject n S) m' S' ∧
        SimReaches G mode dt tbl inject S0 (n + 1) m' S' := by
    rintro n m S ⟨m1, m0, r1, r2, hr⟩
    have hs := started_safe hG ⟨_, m1, r1, r2⟩ hS0
    obtain ⟨inv, nf, -⟩ := C76_run_safe_partial G hG hnr hnz mode hmode dt hdt hdr hdz inject hinj m0 m
      S0 S hs n hr
    have inv' : SafeState G m (inject n S) := ⟨inv.init, inv.field, hinj n S inv.ready⟩
    obtain ⟨-, ⟨m', S', c⟩, -⟩ := C76_cycle_partial G hG hnr hnz mode hmode dt hdt hdr hdz m _ inv'
    exact ⟨nf, m', S', c, m1, m0, r1, r2, .step hr c⟩
  refine ⟨f1, f2, ?_, hx⟩
  intro n
  induction n with
  | zero => exact ⟨y, S0, x, y, s1.sound.2.1, s2.sound.2.1, .start y S0⟩
  | succ n ih =>
    obtain ⟨m, S, h⟩ := ih
    obtain ⟨-, m', S', -, h'⟩ := hx n m S h
    exact ⟨m', S', h'⟩

/-- Hypotheses of C76 and C77: the two species of `drifter_safe` can be simulated for a thousand
cycles; then the inner part of `E_r` can be written out and the whole column cannot. -/
example : ∃ m S, SimReaches demoGeom .borisRelativistic 1e-9 (fun _ _ => none) (fun _ S => S)
      [⟨false, [drifter]⟩, ⟨true, [runner, drifter]⟩] 1000 m S ∧
    probeReads demoGeom m .er ⟨.col, 0, 1, 3, -1, 1⟩ = none := by
  obtain ⟨-, -, h, -⟩ := C76_simulation_partial demoGeom demoGeom_valid (by norm_num [demoGeom])
    (by norm_num [demoGeom]) .borisRelativistic (Or.inl rfl) 1e-9 (by norm_num)
    (by norm_num [demoGeom, LIGHT_SPEED]) (by norm_num [demoGeom, LIGHT_SPEED]) (fun _ _ => none)
    (fun _ S => S) (fun _ _ h => h) _ drifter_safe.ready
  obtain ⟨m, S, hr⟩ := h 1000
  refine ⟨m, S, hr, ?_⟩
  have := C77_column_violated demoGeom demoGeom_valid _ _ _ _ _ _ _ _ hr 1 1
  simpa [demoGeom] using this

end Verif
