import Verif.AtRest
import Verif.ShapeProps
import Verif.SystemProps

/-!
# C89: Gauss's law at the start and from then on
-/

namespace Verif

/-! ## Linear in the charge -/

theorem liveShare_append (G : Geom) (ps qs : List Particle) (i k : ℤ) :
    liveShare G (ps ++ qs) i k = liveShare G ps i k + liveShare G qs i k := by
  unfold liveShare
  rw [List.filter_append, List.map_append, List.sum_append]

theorem rhoOf_share {G : Geom} (hG : G.Valid) {ps : List Particle}
    (hin : ∀ p ∈ ps, p.alive = true → 0 ≤ p.pos.c0 ∧ p.pos.c0 ≤ G.r_size ∧ 0 ≤ p.pos.c2 ∧ p.pos.c2 ≤ G.z_size)
    {a b : ℤ} (h : InGrid G.nr G.nz a b) : rhoOf G ps a b * nodeVolume G a = liveShare G ps a b := by
  obtain ⟨rho, h1, h2⟩ := C55_volume_weighting G hG ps (fun _ _ => 0) hin
  unfold rhoOf
  rw [h1, Option.getD_some, h2 a b h]
  ring

/-- what the charges of a species add to a node, without the charge of a particle and the density -/
noncomputable def shapeSum (G : Geom) (pos : List V3) (i k : ℤ) : ℝ :=
  (pos.map fun p => PI * G.r_size * G.r_size * G.z_size / pos.length
    * macroNorm G ((pos.map fun p => 2 * PI * p.c0 * G.dr * G.dz).sum / pos.length) p.c0 * share G p.c0 p.c2 i k).sum

theorem loaded_share (G : Geom) (charge mass n1 n2 : ℝ) (draws : List (ℝ × ℝ)) (i k : ℤ) :
    ((loadCylindrical G charge mass n1 n2 0 draws).map fun l => l.charge * share G l.pos.c0 l.pos.c2 i k).sum
      = charge * ((n1 + n2) / 2) * shapeSum G (draws.map fun u => loadPos G n1 n2 0 u.1 u.2) i k := by
  unfold loadCylindrical shapeSum
  dsimp only
  rw [List.map_map, ← List.sum_map_mul_left, List.length_map]
  congr 1
  apply List.map_congr_left
  intro p _
  dsimp only [Function.comp]
  ring

theorem species_share {G : Geom} {sp : SpecieSettings} {L : List Loaded} {ps : List Particle}
    (h : List.Forall₂ (LoadedParticle sp) L ps) (i k : ℤ) :
    liveShare G ps i k = (L.map fun l => l.charge * share G l.pos.c0 l.pos.c2 i k).sum := by
  induction h with
  | nil => rfl
  | @cons l p L ps h _ ih =>
    obtain ⟨_, _, _, -, -, -, -, ha, hp, -, hc, -⟩ := h
    unfold liveShare at ih ⊢
    rw [List.filter_cons_of_pos (by simpa using ha), List.map_cons, List.sum_cons, List.map_cons, List.sum_cons, ih, hp,
      hc]

/-- the places depend on the ratio of the densities only -/
theorem loadPos_ratio {G : Geom} {n1 n2 m1 m2 u v : ℝ} (h1 : 0 < n1) (h2 : 0 < n2) (h3 : 0 < m1) (h4 : 0 < m2)
    (h : n1 * m2 = m1 * n2) : loadPos G n1 n2 0 u v = loadPos G m1 m2 0 u v := by
  obtain ⟨c, hc⟩ : ∃ c, c = m1 / n1 := ⟨_, rfl⟩
  have hc0 : 0 < c := by rw [hc]; positivity
  have e1 : m1 = c * n1 := by rw [hc]; field_simp
  have e2 : m2 = c * n2 := by
    rw [hc]; field_simp; linarith
  rw [e1, e2]
  unfold loadPos
  dsimp only
  have e3 : c * n2 - c * n1 = c * (n2 - n1) := by ring
  rw [e3]
  by_cases hd : n2 - n1 = 0
  · rw [if_pos hd, hd, mul_zero, if_pos rfl]
  · rw [if_neg hd, if_neg (mul_ne_zero hc0.ne' hd)]
    have e4 : (c * n1) ^ 2 + v * (2 * (c * n1) * (c * (n2 - n1)) + (c * (n2 - n1)) ^ 2) =
        c ^ 2 * (n1 ^ 2 + v * (2 * n1 * (n2 - n1) + (n2 - n1) ^ 2)) := by ring
    rw [e4, Real.sqrt_mul (by positivity), Real.sqrt_sq hc0.le]
    congr 3
    field_simp

/-- **C89** (start). If all species have the same number of macroparticles and the same profile of density, and their charges
cancel, then the plasma that the program loads has charge density zero at every node: the charges cancel
macroparticle by macroparticle, not just in total. -/
theorem C89_neutral_start (G : Geom) (hG : G.Valid) (hnr : 3 ≤ G.nr) (hnz : 3 ≤ G.nz) (sps : List SpecieSettings) (N : ℕ)
    (hN : ∀ sp ∈ sps, ⌊sp.number_macro⌋₊ = N)
    (hpos : ∀ sp ∈ sps, 0 < sp.mass ∧ 0 < sp.left_density ∧ 0 < sp.right_density)
    (hprof : ∀ sp ∈ sps, ∀ sp' ∈ sps, sp.left_density * sp'.right_density = sp'.left_density * sp.right_density)
    (hsum : (sps.map fun sp => (sp.charge : ℝ) * sp.left_density).sum = 0) (S : List Species)
    (h : InitPlasma G sps (some S)) (a b : ℤ) (hab : InGrid G.nr G.nz a b) : rhoOf G (parts S) a b = 0 := by
  rcases h with ⟨h, -⟩ | ⟨S', e, h⟩
  · cases h
  cases e
  have hin : ∀ p ∈ parts S, p.alive = true → 0 ≤ p.pos.c0 ∧ p.pos.c0 ≤ G.r_size ∧ 0 ≤ p.pos.c2 ∧
      p.pos.c2 ≤ G.z_size := by
    intro p hp _
    obtain ⟨s, hs, hp⟩ := List.mem_flatMap.1 hp
    obtain ⟨sp, hsp, -, hi⟩ := forall2_right h hs
    cases hi with
    | ok draws hd _ hl =>
      obtain ⟨l, hlm, _, _, _, -, -, -, -, -, hpl, -⟩ := forall2_right hl hp
      obtain ⟨m1, m2, m3⟩ := hpos sp hsp
      have hm : (0 : ℝ) < sp.mass * EL_MASS := by
        have : (0 : ℝ) < sp.mass := by exact_mod_cast m1
        have : (0 : ℝ) < EL_MASS := by norm_num [EL_MASS]
        positivity
      obtain ⟨⟨r1, r2, r3, r4⟩, -⟩ := loaded_good hG hnr hnz hm m2 m3 (codeDraws_range hd) hlm
      have := hG.dr_pos
      have := hG.dz_pos
      rw [hpl]
      refine ⟨?_, ?_, ?_, ?_⟩ <;> linarith
  have hv : nodeVolume G a ≠ 0 := (nodeVolume_pos G hG hab.1).ne'
  have key : liveShare G (parts S) a b = 0 := by
    obtain ⟨draws, hd⟩ := codeDraws_exists N
    have main : ∀ (n1 n2 : ℝ), 0 < n1 → 0 < n2 →
        (∀ sp ∈ sps, n1 * sp.right_density = sp.left_density * n2) → liveShare G (parts S) a b =
          (sps.map fun sp => (sp.charge : ℝ) * sp.left_density).sum * (EL_CHARGE * ((1 + n2 / n1) / 2) *
            shapeSum G (draws.map fun u => loadPos G n1 n2 0 u.1 u.2) a b) := by
      intro n1 n2 hn1 hn2
      clear hsum hin hprof
      induction h with
      | nil => intro _; simp [parts, liveShare]
      | @cons sp s sps S h1 _ ih =>
        intro hr
        have hcons : parts (s :: S) = s.ps ++ parts S := rfl
        rw [hcons, liveShare_append, ih (fun x hx => hN x (by simp [hx])) (fun x hx => hpos x (by simp [hx]))
          (fun x hx => hr x (by simp [hx])), List.map_cons, List.sum_cons, add_mul]
        congr 1
        obtain ⟨-, h1⟩ := h1
        cases h1 with
        | ok draws' hd' _ hl =>
          have hnum : sp.number = N := hN sp (by simp)
          rw [hnum] at hd'
          have : draws' = draws := by
            apply List.ext_getElem (hd'.1.trans hd.1.symm)
            intro i h1 h2
            obtain ⟨a1, a2⟩ := hd'.2 i _ (List.getElem?_eq_getElem h1)
            obtain ⟨b1, b2⟩ := hd.2 i _ (List.getElem?_eq_getElem h2)
            exact Prod.ext (rrloop_unique a1 b1) (rrloop_unique a2 b2)
          subst this
          obtain ⟨-, p1, p2⟩ := hpos sp (by simp)
          have hr0 := hr sp (by simp)
          rw [species_share hl, loaded_share]
          have e1 : (draws'.map fun u => loadPos G sp.left_density sp.right_density 0 u.1 u.2) =
              draws'.map fun u => loadPos G n1 n2 0 u.1 u.2 :=
            List.map_congr_left fun u _ => loadPos_ratio p1 p2 hn1 hn2 (by linarith)
          rw [e1]
          have e2 : (sp.left_density + sp.right_density) / 2 = sp.left_density * ((1 + n2 / n1) / 2) := by
            field_simp; linarith
          rw [e2]
          ring
    cases sps with
    | nil => cases h; simp [parts, liveShare]
    | cons sp sps =>
      obtain ⟨-, p1, p2⟩ := hpos sp (by simp)
      rw [main _ _ p1 p2 (fun x hx => hprof sp (by simp) x hx), hsum, zero_mul]
  have := rhoOf_share hG hin hab
  rw [key] at this
  exact (mul_eq_zero.1 this).resolve_right hv

theorem started_outflow {G : Geom} (hG : G.Valid) {tbl : ℤ → ℤ → Option ℝ} {m : Mem Loc} (hm : Started G tbl m) {a b : ℤ}
    (ha : 0 ≤ a) (ha' : a < G.nr - 1) (hb : 1 ≤ b) (hb' : b < G.nz - 1) :
    netOutflow G (fieldsOf m .er) (fieldsOf m .ez) a b = 0 := by
  have hr := (hm.rep hG).agree
  have e1 : fieldsOf m .er a b = 0 := agree_at hr .er a b (by rng) (by rng) (by rng) (by rng)
  have e3 : fieldsOf m .ez a b = 0 := agree_at hr .ez a b (by rng) (by rng) (by rng) (by rng)
  have e4 : fieldsOf m .ez a (b - 1) = 0 := agree_at hr .ez a (b - 1) (by rng) (by rng) (by rng) (by rng)
  unfold netOutflow
  rw [e1, e3, e4]
  rcases ha.eq_or_lt with rfl | h
  · have : max 0 ((((0 : ℤ) : ℝ) - 1 / 2) * G.dr) = 0 := by
      apply max_eq_left
      have := hG.dr_pos
      push_cast
      linarith
    rw [this]
    ring
  · have e2 : fieldsOf m .er (a - 1) b = 0 := agree_at hr .er (a - 1) b (by rng) (by rng) (by rng) (by rng)
    rw [e2]
    ring

/-- **C89** (Gauss's law at the start). With a plasma as in `C89_neutral_start` the fields that the program starts with, which
are zero, obey Gauss's law at every node off the walls. -/
theorem C89_gauss_start (G : Geom) (hG : G.Valid) (hnr : 3 ≤ G.nr) (hnz : 3 ≤ G.nz) (sps : List SpecieSettings) (N : ℕ)
    (hN : ∀ sp ∈ sps, ⌊sp.number_macro⌋₊ = N)
    (hpos : ∀ sp ∈ sps, 0 < sp.mass ∧ 0 < sp.left_density ∧ 0 < sp.right_density)
    (hprof : ∀ sp ∈ sps, ∀ sp' ∈ sps, sp.left_density * sp'.right_density = sp'.left_density * sp.right_density)
    (hsum : (sps.map fun sp => (sp.charge : ℝ) * sp.left_density).sum = 0) (S : List Species)
    (h : InitPlasma G sps (some S)) (tbl : ℤ → ℤ → Option ℝ) (m : Mem Loc) (hm : Started G tbl m) (a b : ℤ) (ha : 0 ≤ a)
    (ha' : a < G.nr - 1) (hb : 1 ≤ b) (hb' : b < G.nz - 1) :
    gaussDefect G 1 (fieldsOf m) (rhoOf G (parts S)) a b = 0 := by
  unfold gaussDefect
  rw [started_outflow hG hm ha ha' hb hb', C89_neutral_start G hG hnr hnz sps N hN hpos hprof hsum S h a b
    ⟨ha, by omega, by omega, by omega⟩]
  ring

/-- **C89 (partial)** (Gauss's law from the start on). Without absorbing layer and beam, Gauss's law holds at every node off the
walls after any number of cycles, as long as these move the macroparticles by good moves.
Missing: moves that are not good (C06, C07), and the beam: `C89_injection_violated`. -/
theorem C89_closed_run_partial (G : Geom) (hG : G.Valid) (hnr : 3 ≤ G.nr) (hnz : 3 ≤ G.nz) (sps : List SpecieSettings) (N : ℕ)
    (hN : ∀ sp ∈ sps, ⌊sp.number_macro⌋₊ = N)
    (hpos : ∀ sp ∈ sps, 0 < sp.mass ∧ 0 < sp.left_density ∧ 0 < sp.right_density)
    (hprof : ∀ sp ∈ sps, ∀ sp' ∈ sps, sp.left_density * sp'.right_density = sp'.left_density * sp.right_density)
    (hsum : (sps.map fun sp => (sp.charge : ℝ) * sp.left_density).sum = 0) (mode : PusherMode) (dt : ℝ) (hdt : dt ≠ 0)
    (m : ℕ → Mem Loc) (S : ℕ → List Species) (hm : Started G (fun _ _ => none) (m 0))
    (hS : InitPlasma G sps (some (S 0))) (n : ℕ) (hc : ∀ j < n, Cycle G mode dt (m j) (S j) (m (j + 1)) (S (j + 1)))
    (hp : ∀ j < n, List.Forall₂ (fun p p' => p.alive = false ∨
      (p'.alive = true ∧ InChamber G p' ∧ GoodMove G p')) (parts (S j)) (parts (S (j + 1))))
    (a b : ℤ) (ha : 0 ≤ a) (ha' : a < G.nr - 1) (hb : 1 ≤ b) (hb' : b < G.nz - 1) :
    gaussDefect G 1 (fieldsOf (m n)) (rhoOf G (parts (S n))) a b = 0 := by
  have hr := hm.rep hG
  have inv : ∀ j ≤ n, gaussDefect G 1 (fieldsOf (m j)) (rhoOf G (parts (S j))) a b = 0 ∧ Initialised G (m j) ∧
      (∀ i k, Box 0 G.nr 0 G.nz i k → fieldsOf (m j) .eps i k = 1) ∧
      (∀ i k, Box 0 G.nr 0 G.nz i k → fieldsOf (m j) .sig i k = 0) := by
    intro j
    induction j with
    | zero =>
      intro _
      exact ⟨C89_gauss_start G hG hnr hnz sps N hN hpos hprof hsum (S 0) hS _ (m 0) hm a b ha ha' hb hb', hr.initialised,
        fun i k h => agree_at hr.agree .eps i k (by rng) (by rng) (by rng) (by rng),
        fun i k h => agree_at hr.agree .sig i k (by rng) (by rng) (by rng) (by rng)⟩
    | succ j ih =>
      intro hj
      obtain ⟨i1, i2, i3, i4⟩ := ih (by omega)
      obtain ⟨k1, k2⟩ := C49_cycle_gauss G hG mode dt 1 hdt one_pos _ _ _ _ i2 i3 i4 (hc j (by omega))
        ((hp j (by omega)).imp fun p p' h => h.elim .dead fun h => .good h.1 h.2.1 h.2.2)
      refine ⟨?_, k2⟩
      have : absorbed (parts (S j)) (parts (S (j + 1))) = [] := by
        unfold absorbed
        rw [List.map_eq_nil_iff, List.filter_eq_nil_iff]
        intro x hx
        obtain ⟨k, hk, rfl⟩ := List.mem_iff_getElem.1 hx
        have := (List.forall₂_iff_get.1 (hp j (by omega))).2 k (by simp at hk; omega) (by simp at hk; omega)
        simp only [List.getElem_zip]
        simp only [List.get_eq_getElem] at this
        rcases this with h | h
        · simp [h]
        · simp [h.1]
      rw [k1 a b ha ha' hb hb', i1, this]
      simp [rhoOf, chargeWeighting]
  exact (inv n le_rfl).1

/-- **C89** (shipped configuration). The plasma of the shipped configuration file has charge density zero at every node,
whatever is drawn. -/
theorem C89_shipped (debug : Bool) : ∃ c G, loadConfig (some (shipped debug).xml) = .ok c ∧ c.geometry = some G ∧
    (∃ S, InitPlasma G c.species (some S)) ∧
    ∀ S, InitPlasma G c.species (some S) → ∀ a b, InGrid G.nr G.nz a b → rhoOf G (parts S) a b = 0 := by
  obtain ⟨G, hg, hv, hnr, hnz, -⟩ := shipped_setup debug
  refine ⟨_, G, C68_read_back _ (shipped_ok debug), hg,
    (C79_plasma_partial G hv hnr hnz _ (shipped_species debug)).2.1, fun S hS => ?_⟩
  have hs : ∃ e i : SpecieSettings, (shipped debug).meaning.species = [e, i] ∧ e.number_macro = i.number_macro ∧
      e.left_density = i.left_density ∧ e.right_density = i.right_density ∧ e.charge = -1 ∧ i.charge = 1 ∧
      0 < e.mass ∧ 0 < i.mass ∧ 0 < e.left_density ∧ 0 < e.right_density := by
    refine ⟨_, _, rfl, rfl, rfl, rfl, rfl, rfl, ?_, ?_, ?_, ?_⟩
    · norm_num [SpecieDesc.meaning]
    · norm_num [SpecieDesc.meaning]
    · norm_num [SpecieDesc.meaning, litE, Lit.value, fracValue]
    · norm_num [SpecieDesc.meaning, litE, Lit.value, fracValue]
  obtain ⟨e, i, h0, h1, h2, h3, h4, h5, h6, h7, h8, h9⟩ := hs
  rw [h0] at hS
  refine C89_neutral_start G hv hnr hnz [e, i] ⌊e.number_macro⌋₊ ?_ ?_ ?_ ?_ S hS
  · intro sp hsp
    simp only [List.mem_cons, List.not_mem_nil, or_false] at hsp
    rcases hsp with rfl | rfl
    · rfl
    · rw [h1]
  · intro sp hsp
    simp only [List.mem_cons, List.not_mem_nil, or_false] at hsp
    rcases hsp with rfl | rfl
    · exact ⟨h6, h8, h9⟩
    · exact ⟨h7, h2 ▸ h8, h3 ▸ h9⟩
  · intro x hx y hy
    simp only [List.mem_cons, List.not_mem_nil, or_false] at hx hy
    rcases hx with rfl | rfl <;> rcases hy with rfl | rfl
    · rfl
    · rw [h2, h3]
    · rw [h2, h3]
    · rfl
  · simp only [List.map_cons, List.map_nil, List.sum_cons, List.sum_nil, h4, h5, h2]
    push_cast
    ring

/-! ## Different numbers of macroparticles -/

theorem rr_zero (p : ℤ) : RandomReverse ((0 : ℕ) : ℝ) p 0 := by
  unfold RandomReverse
  rw [show ⌊((0 : ℕ) : ℝ)⌋ = 0 by norm_num]
  exact .done 0 0 1 (by decide)

theorem rr_one {p : ℤ} (hp : 2 ≤ p) : RandomReverse ((1 : ℕ) : ℝ) p (1 / p) := by
  unfold RandomReverse
  rw [show ⌊((1 : ℕ) : ℝ)⌋ = 1 by norm_num]
  refine .step _ _ _ _ (by norm_num) (by omega) ?_
  have e : Int.tmod 1 p = 1 := by rw [Int.tmod_eq_emod_of_nonneg (by norm_num)]; exact Int.emod_eq_of_lt (by norm_num) (by omega)
  rw [e]
  have := RRLoop.done (power := p) 0 (1 / p) 2 (by decide)
  simpa using this

theorem rr_unique {v : ℝ} {p : ℤ} {x y : ℝ} (hx : RandomReverse v p x) (hy : RandomReverse v p y) : x = y := rrloop_unique hx hy

theorem draws_one {d : List (ℝ × ℝ)} (h : CodeDraws 1 d) : d = [(0, 0)] := by
  obtain ⟨u, rfl⟩ := List.length_eq_one_iff.1 h.1
  obtain ⟨h1, h2⟩ := h.2 0 u rfl
  have e1 := rr_unique h1 (rr_zero 13)
  have e2 := rr_unique h2 (rr_zero 11)
  rw [Prod.ext (x := u) (y := (0, 0)) e1 e2]

theorem draws_two {d : List (ℝ × ℝ)} (h : CodeDraws 2 d) : d = [(0, 1 / 11), (1 / 13, 0)] := by
  obtain ⟨u, v, rfl⟩ := List.length_eq_two.1 h.1
  obtain ⟨h1, h2⟩ := h.2 0 u rfl
  obtain ⟨h3, h4⟩ := h.2 1 v rfl
  have e1 := rr_unique h1 (rr_zero 13)
  have e2 := rr_unique h2 (rr_one (p := 11) (by norm_num))
  have e3 := rr_unique h3 (rr_one (p := 13) (by norm_num))
  have e4 := rr_unique h4 (rr_zero 11)
  rw [Prod.ext (x := u) (y := (0, 1 / 11)) e1 (by rw [e2]; norm_num),
    Prod.ext (x := v) (y := (1 / 13, 0)) (by rw [e3]; norm_num) e4]

/-- two species with one and two macroparticles -/
noncomputable def unequal : List SpecieSettings :=
  [⟨"electrons".toList, -1, 1, 1, 1, 1, 1⟩, ⟨"ions".toList, 1, 1836, 2, 1, 1, 1 / 10⟩]

theorem pi_cancel (x y : ℝ) : PI * x / (PI * y) = x / y := mul_div_mul_left _ _ (by unfold PI; norm_num)

theorem shapeSum_one : shapeSum demoGeom ([(0, 0)].map fun u : ℝ × ℝ => loadPos demoGeom 1 1 0 u.1 u.2) 0 0 = 3 / 2 * PI := by
  have hp : (0 : ℝ) < PI := by unfold PI; norm_num
  have e1 : loadPos demoGeom 1 1 0 0 0 = ⟨1 / 2, 0, 1 / 2⟩ := by norm_num [loadPos, demoGeom]
  have e2 : share demoGeom (1 / 2) (1 / 2) 0 0 = 1 / 8 := by
    norm_num [share, demoGeom, partInCell, ringOverlap, overlap, ringVolume, min_def, max_def]
    field_simp
    norm_num
  simp only [List.map_cons, List.map_nil, e1]
  simp only [shapeSum, List.map_cons, List.map_nil, List.sum_cons, List.sum_nil, e2, List.length_cons, List.length_nil]
  norm_num [macroNorm, demoGeom]
  field_simp
  norm_num

theorem shapeSum_two : shapeSum demoGeom ([(0, 1 / 11), (1 / 13, 0)].map fun u : ℝ × ℝ => loadPos demoGeom 1 1 0 u.1 u.2) 0 0
    < 3 / 2 * PI := by
  have hp : (0 : ℝ) < PI := by unfold PI; norm_num
  have e1 : loadPos demoGeom 1 1 0 0 (1 / 11) = ⟨1 / 2, 0, 15 / 22⟩ := by norm_num [loadPos, demoGeom]
  have e1' : loadPos demoGeom 1 1 0 (1 / 13) 0 = ⟨15 / 26, 0, 1 / 2⟩ := by norm_num [loadPos, demoGeom]
  have e2 : share demoGeom (1 / 2) (15 / 22) 0 0 = 7 / 88 := by
    norm_num [share, demoGeom, partInCell, ringOverlap, overlap, ringVolume, min_def, max_def]
    field_simp
    norm_num
  have e3 : share demoGeom (15 / 26) (1 / 2) 0 0 = 11 / 104 := by
    norm_num [share, demoGeom, partInCell, ringOverlap, overlap, ringVolume, min_def, max_def]
    field_simp
    norm_num
  simp only [List.map_cons, List.map_nil, e1, e1']
  simp only [shapeSum, List.map_cons, List.map_nil, List.sum_cons, List.sum_nil, e2, e3, List.length_cons, List.length_nil]
  norm_num [macroNorm, demoGeom]
  field_simp
  norm_num

/-- **C89 is violated** if the species have different numbers of macroparticles. The configuration `unequal` gives each species
the same density, so the plasma is neutral as a whole (C25); yet whatever is drawn, the charge density at the node in the corner
is not zero, while the field is. So Gauss's law is wrong from the start, and stays so (C49). -/
theorem C89_numbers_violated : (∃ S, InitPlasma demoGeom unequal (some S)) ∧
    (unequal.map fun sp => (sp.charge : ℝ) * sp.left_density).sum = 0 ∧
    ∀ S, InitPlasma demoGeom unequal (some S) → rhoOf demoGeom (parts S) 0 0 ≠ 0 := by
  have hu : ∀ sp ∈ unequal, sp.Usable := by
    intro sp hsp
    simp only [unequal, List.mem_cons, List.not_mem_nil, or_false] at hsp
    rcases hsp with rfl | rfl
    · exact ⟨by norm_num, by norm_num, by norm_num, by norm_num, by norm_num, by norm_num, good_one⟩
    · exact ⟨by norm_num, by norm_num, by norm_num, by norm_num, by norm_num, by norm_num, good_tenth⟩
  have hpl := C79_plasma_partial demoGeom demoGeom_valid (by norm_num [demoGeom]) (by norm_num [demoGeom]) unequal hu
  refine ⟨hpl.2.1, by norm_num [unequal], fun S h h0 => ?_⟩
  have hin := (hpl.2.2 S h).2
  have hs := rhoOf_share demoGeom_valid (ps := parts S) (fun p hp _ => by
    obtain ⟨-, ⟨r1, r2, r3, r4⟩, -⟩ := hin p hp
    have := demoGeom_valid.dr_pos
    have := demoGeom_valid.dz_pos
    refine ⟨?_, ?_, ?_, ?_⟩ <;> linarith) (a := 0) (b := 0) ⟨le_refl _, by norm_num [demoGeom], le_refl _, by norm_num [demoGeom]⟩
  rw [h0, zero_mul] at hs
  rcases h with ⟨h, -⟩ | ⟨S', e, h⟩
  · cases h
  cases e
  unfold unequal at h
  obtain ⟨s, S1, ⟨-, h1⟩, t1, rfl⟩ := List.forall₂_cons_left_iff.1 h
  obtain ⟨s', S2, ⟨-, h2⟩, t2, rfl⟩ := List.forall₂_cons_left_iff.1 t1
  cases t2
  have hparts : parts [s, s'] = s.ps ++ s'.ps := by simp [parts]
  rw [hparts, liveShare_append] at hs
  cases h1 with
  | ok d1 hd1 _ l1 =>
    cases h2 with
    | ok d2 hd2 _ l2 =>
      rw [species_share l1, loaded_share, species_share l2, loaded_share] at hs
      have n1 : SpecieSettings.number ⟨"electrons".toList, -1, 1, 1, 1, 1, 1⟩ = 1 := by simp only [SpecieSettings.number]; norm_num
      have n2 : SpecieSettings.number ⟨"ions".toList, 1, 1836, 2, 1, 1, 1 / 10⟩ = 2 := by simp only [SpecieSettings.number]; norm_num
      rw [n1] at hd1
      rw [n2] at hd2
      rw [draws_one hd1, draws_two hd2, shapeSum_one] at hs
      have h3 := shapeSum_two
      have hc : (0 : ℝ) < EL_CHARGE := by norm_num [EL_CHARGE]
      push_cast at hs
      nlinarith

/-! ## Injection -/

theorem fresh_charge {G : Geom} (hG : G.Valid) {P : BeamSetup} (hP : P.Usable G) {fresh : ℕ → Particle}
    (h : FreshBunch G P fresh) {i : ℕ} (hi : i < P.number) : ∃ w, 0 < w ∧ (fresh i).charge = P.charge * w := by
  obtain ⟨hd, draws, hl, hu, hf⟩ := h
  have hdr := hG.dr_pos
  have hdz := hG.dz_pos
  have hpi : (0:ℝ) < PI := by unfold PI; norm_num
  have hi' : i < draws.length := by rw [hl]; exact hi
  have hpos : ∀ u ∈ draws, G.dr / 2 ≤ (P.radius - G.dr) * u + G.dr / 2 := by
    intro u hu'
    obtain ⟨u0, u1⟩ := hu u hu'
    have h1 := hP.radius_ge
    nlinarith
  have hv : 0 < ((draws.map fun u => (P.radius - G.dr) * u + G.dr / 2).map fun r =>
      if r > G.dr then 2 * PI * r * G.dr * G.dz else PI * r * r * G.dz).sum := by
    apply List.sum_pos
    · intro x hx
      simp only [List.mem_map, exists_exists_and_eq_and] at hx
      obtain ⟨u, hu', rfl⟩ := hx
      have := hpos u hu'
      have hr : 0 < (P.radius - G.dr) * u + G.dr / 2 := by linarith
      split_ifs <;> positivity
    · intro hx
      have := congrArg List.length hx
      simp at this
      rw [this] at hi'; simp at hi'
  have hn : (0:ℝ) < (draws.length : ℝ) := by exact_mod_cast (by omega : 0 < draws.length)
  have q1 := hpos draws[i] (List.getElem_mem hi')
  obtain ⟨p1, p2, p3, p4⟩ := hf i _ (by
    unfold newBunch
    dsimp only
    rw [List.getElem?_map, List.getElem?_map, List.getElem?_eq_getElem hi', Option.map_some,
      Option.map_some])
  refine ⟨_, ?_, p3⟩
  have hr : 0 < (P.radius - G.dr) * draws[i] + G.dr / 2 := by linarith
  have hR : 0 < P.radius := by linarith [hP.radius_ge]
  have hnorm : ∀ v : ℝ, 0 < v → 0 < macroNorm G v ((P.radius - G.dr) * draws[i] + G.dr / 2) := by
    intro v hv
    unfold macroNorm
    split_ifs <;> positivity
  refine mul_pos ?_ (hnorm _ (div_pos hv hn))
  have := hP.duration_pos
  have := hP.density_pos
  have := hP.velocity_pos
  positivity

theorem ringOverlap_nonneg (a b c d : ℝ) : 0 ≤ ringOverlap a b c d :=
  mul_nonneg (by unfold PI; norm_num) (le_max_left _ _)

theorem share_nonneg_off {G : Geom} (hG : G.Valid) {r : ℝ} (hr : G.dr / 2 ≤ r) (z : ℝ) (i k : ℤ) : 0 ≤ share G r z i k := by
  have h1 := hG.dr_pos
  have h2 := hG.dz_pos
  have h3 : (0 : ℝ) < PI := by unfold PI; norm_num
  rw [share, if_pos hr]
  refine div_nonneg (mul_nonneg (ringOverlap_nonneg _ _ _ _) (le_max_left _ _)) ?_
  have h4 : (r - G.dr / 2) ^ 2 ≤ (r + G.dr / 2) ^ 2 := by nlinarith
  exact mul_nonneg (mul_nonneg h3.le (by linarith)) h2.le

/-- a macroparticle near the left wall touches the cell of a node in the first column off the wall -/
theorem share_pos_entry {G : Geom} (hG : G.Valid) {r z : ℝ} (hr : G.dr / 2 ≤ r) (hz : G.dz / 2 ≤ z) (hz' : z < 3 / 2 * G.dz) :
    0 < share G r z ⌊r / G.dr⌋ 1 := by
  have h1 := hG.dr_pos
  have h2 := hG.dz_pos
  have h3 : (0 : ℝ) < PI := by unfold PI; norm_num
  have f1 : (⌊r / G.dr⌋ : ℝ) * G.dr ≤ r := by
    have := Int.floor_le (r / G.dr)
    rwa [le_div_iff₀ h1] at this
  have f2 : r < (⌊r / G.dr⌋ + 1) * G.dr := by
    have := Int.lt_floor_add_one (r / G.dr)
    rwa [div_lt_iff₀ h1] at this
  have f3 : (0 : ℝ) ≤ ⌊r / G.dr⌋ := by
    exact_mod_cast Int.floor_nonneg.2 (div_nonneg (by linarith) h1.le)
  rw [share, if_pos hr]
  refine div_pos (mul_pos (mul_pos h3 ?_) ?_) (mul_pos (mul_pos h3 ?_) h2)
  · refine lt_max_of_lt_right ?_
    rw [min_eq_right (by linarith), sub_pos]
    have g1 : 0 ≤ max (r - G.dr / 2) (max 0 ((↑⌊r / G.dr⌋ - 1 / 2) * G.dr)) := le_max_of_le_left (by linarith)
    have g2 : max (r - G.dr / 2) (max 0 ((↑⌊r / G.dr⌋ - 1 / 2) * G.dr)) < (⌊r / G.dr⌋ + 1 / 2) * G.dr := by
      refine max_lt (by linarith) (max_lt (by positivity) (by nlinarith))
    nlinarith
  · unfold overlap
    refine lt_max_of_lt_right ?_
    rw [sub_pos]
    push_cast
    refine lt_min (max_lt (by linarith) (by linarith)) (max_lt (by linarith) (by linarith))
  · nlinarith

/-- **C89 is violated** by the beam. A bunch is put into the chamber without any field of its own: whatever plasma of charge
density zero, whatever beam with a charge and whatever is drawn, as soon as the first bunch has a macroparticle in the chamber
Gauss's law is wrong at some node in the first column off the left wall. -/
theorem C89_injection_violated (G : Geom) (hG : G.Valid) (hnz : 3 ≤ G.nz) (P : BeamSetup) (hP : P.Usable G)
    (hq : P.charge ≠ 0) (t dt : ℝ) (hdt : 0 < dt) (hcfl : LIGHT_SPEED * dt ≤ G.dz) (plasma : List Species)
    (hin : ∀ p ∈ parts plasma, p.alive = true → 0 ≤ p.pos.c0 ∧ p.pos.c0 ≤ G.r_size ∧ 0 ≤ p.pos.c2 ∧ p.pos.c2 ≤ G.z_size)
    (hrho : ∀ a b, InGrid G.nr G.nz a b → rhoOf G (parts plasma) a b = 0) (tbl : ℤ → ℤ → Option ℝ) (m : Mem Loc)
    (hm : Started G tbl m) (b : BeamState) (hb : BeamStep G P t dt ⟨0, []⟩ (some b)) (o : BunchObj) (ho : o ∈ b.bunches)
    (i : ℕ) (hi : i < P.number) (hal : (o.ps i).alive = true) :
    ∃ a : ℤ, 0 ≤ a ∧ a < G.nr - 1 ∧
      gaussDefect G 1 (fieldsOf m) (rhoOf G (parts (partList P.number plasma b))) a 1 ≠ 0 := by
  have h1 := hG.dr_pos
  have h2 := hG.dz_pos
  have hnzR : (3 : ℝ) ≤ G.nz := by exact_mod_cast hnz
  obtain ⟨fresh, hf, hone⟩ : ∃ fresh, FreshBunch G P fresh ∧ b.bunches = [o] ∧
      Inject G P.toBunchCfg 0 t dt fresh (some o.ps) := by
    cases hb with
    | ok fresh bs hf hc hi =>
      refine ⟨fresh, hf, ?_⟩
      have h3 := injectAll_forall2 hi rfl
      unfold create at h3
      dsimp only at h3 ho ⊢
      split_ifs at h3
      · simp only [List.nil_append] at h3
        obtain ⟨x, X, ⟨-, hx⟩, hX, rfl⟩ := List.forall₂_cons_left_iff.1 h3
        cases hX
        have : o = x := by simpa using ho
        subst this
        exact ⟨rfl, hx⟩
      · cases h3; simp at ho
  obtain ⟨hbo, hinj⟩ := hone
  -- the macroparticles of the bunch
  have hall : ∀ j, j < P.number → (o.ps j).alive = true → (∃ w, 0 < w ∧ (o.ps j).charge = P.charge * w) ∧
      G.dr / 2 ≤ (o.ps j).pos.c0 ∧ (o.ps j).pos.c0 ≤ G.r_size - G.dr / 2 ∧ G.dz / 2 ≤ (o.ps j).pos.c2 ∧
      (o.ps j).pos.c2 < 3 / 2 * G.dz := by
    intro j hj ha
    obtain ⟨u, u0, u1, e⟩ := inject_effect hdt hinj j
    have hw := fresh_waiting hG hP hf hj
    split_ifs at e
    · rw [e]
      refine ⟨fresh_charge hG hP hf hj, hw.2.1, hw.2.2.1, ?_, ?_⟩
      · have := hP.velocity_pos
        have : 0 ≤ P.velocity * dt * u := by positivity
        show G.dz / 2 ≤ P.velocity * dt * u + G.dz / 2
        linarith
      · have h5 : P.velocity * dt < G.dz := lt_of_lt_of_le (mul_lt_mul_of_pos_right hP.velocity_lt hdt) hcfl
        have h6 : 0 < P.velocity * dt := mul_pos hP.velocity_pos hdt
        show P.velocity * dt * u + G.dz / 2 < 3 / 2 * G.dz
        nlinarith
    · rw [e, hw.1] at ha; cases ha
  have hps : parts (partList P.number plasma b) = parts plasma ++ (List.range P.number).map o.ps := by
    simp [parts, partList, hbo, BunchObj.species]
  have hin' : ∀ p ∈ parts (partList P.number plasma b), p.alive = true → 0 ≤ p.pos.c0 ∧ p.pos.c0 ≤ G.r_size ∧
      0 ≤ p.pos.c2 ∧ p.pos.c2 ≤ G.z_size := by
    intro p hp ha
    rw [hps, List.mem_append] at hp
    rcases hp with hp | hp
    · exact hin p hp ha
    · obtain ⟨j, hj, rfl⟩ := List.mem_map.1 hp
      obtain ⟨-, q1, q2, q3, q4⟩ := hall j (List.mem_range.1 hj) ha
      have := hG.z_size_eq
      refine ⟨by linarith, by linarith, by linarith, ?_⟩
      rw [this]
      nlinarith
  obtain ⟨⟨w, hw, hc⟩, q1, q2, q3, q4⟩ := hall i hi hal
  have ha0 : 0 ≤ ⌊(o.ps i).pos.c0 / G.dr⌋ := Int.floor_nonneg.2 (div_nonneg (by linarith) h1.le)
  have ha1 : ⌊(o.ps i).pos.c0 / G.dr⌋ < G.nr - 1 := by
    rw [Int.floor_lt, div_lt_iff₀ h1]
    have := hG.r_size_eq
    push_cast
    nlinarith
  refine ⟨⌊(o.ps i).pos.c0 / G.dr⌋, ha0, ha1, ?_⟩
  obtain ⟨a, hadef⟩ : ∃ a, a = ⌊(o.ps i).pos.c0 / G.dr⌋ := ⟨_, rfl⟩
  rw [← hadef] at ha0 ha1 ⊢
  have hgrid : InGrid G.nr G.nz a 1 := ⟨ha0, by omega, by norm_num, by omega⟩
  have hpos : 0 < share G (o.ps i).pos.c0 (o.ps i).pos.c2 a 1 := by
    rw [hadef]
    exact share_pos_entry hG q1 q3 q4
  unfold gaussDefect
  rw [started_outflow hG hm ha0 ha1 le_rfl (by omega), rhoOf_share hG hin' hgrid, hps, liveShare_append,
    ← rhoOf_share hG hin hgrid, hrho a 1 hgrid]
  have key : 0 < P.charge * liveShare G ((List.range P.number).map o.ps) a 1 := by
    unfold liveShare
    rw [← List.sum_map_mul_left]
    have hmem : P.charge * ((o.ps i).charge * share G (o.ps i).pos.c0 (o.ps i).pos.c2 a 1) ∈
        ((List.filter (fun p => p.alive) ((List.range P.number).map o.ps)).map fun p =>
          P.charge * (p.charge * share G p.pos.c0 p.pos.c2 a 1)) :=
      List.mem_map.2 ⟨o.ps i, List.mem_filter.2 ⟨List.mem_map.2 ⟨i, List.mem_range.2 hi, rfl⟩, hal⟩, rfl⟩
    refine lt_of_lt_of_le ?_ (List.single_le_sum ?_ _ hmem)
    · rw [hc, ← mul_assoc, ← mul_assoc]
      exact mul_pos (mul_pos (mul_self_pos.2 hq) hw) hpos
    · intro x hx
      obtain ⟨p, hp, rfl⟩ := List.mem_map.1 hx
      obtain ⟨hp, hpa⟩ := List.mem_filter.1 hp
      obtain ⟨j, hj, rfl⟩ := List.mem_map.1 hp
      obtain ⟨⟨v, hv, hcv⟩, s1, s2, s3, s4⟩ := hall j (List.mem_range.1 hj) hpa
      rw [hcv, ← mul_assoc, ← mul_assoc]
      exact mul_nonneg (mul_nonneg (mul_self_nonneg _) hv.le) (share_nonneg_off hG s1 _ _ _)
  intro h0
  have : liveShare G ((List.range P.number).map o.ps) a 1 = 0 := by linarith
  rw [this, mul_zero] at key
  exact lt_irrefl _ key

/-- **C89 is violated** in the first iteration with the configuration that comes with the program: whatever is drawn for the
plasma and for the beam, after the first call of `init_beam` Gauss's law is wrong at some node off the walls. -/
theorem C89_shipped_injection_violated (debug : Bool) : ∃ c G, loadConfig (some (shipped debug).xml) = .ok c ∧
    c.geometry = some G ∧ (∃ b, BeamStep G c.beamSetup c.time.current_time c.time.delta_t ⟨0, []⟩ (some b)) ∧
    ∀ S, InitPlasma G c.species (some S) → ∀ tbl m, Started G tbl m → ∀ b,
      BeamStep G c.beamSetup c.time.current_time c.time.delta_t ⟨0, []⟩ (some b) →
      ∃ a : ℤ, 0 ≤ a ∧ a < G.nr - 1 ∧
        gaussDefect G 1 (fieldsOf m) (rhoOf G (parts (partList c.beamSetup.number S b))) a 1 ≠ 0 := by
  obtain ⟨c', G', hc', hg', -, hz⟩ := C89_shipped debug
  obtain ⟨G, hg, hv, hnr, hnz, -, -, hdz, hP⟩ := shipped_setup debug
  obtain ⟨c, hc⟩ : ∃ c, c = (shipped debug).meaning := ⟨_, rfl⟩
  have hload : loadConfig (some (shipped debug).xml) = .ok c := by rw [hc]; exact C68_read_back _ (shipped_ok debug)
  have ecc : c' = c := by
    rw [hload] at hc'
    injection hc' with hc'
    exact hc'.symm
  subst ecc
  rw [← hc] at hg hP
  have eg : G' = G := by rw [hg] at hg'; exact (Option.some.inj hg').symm
  subst eg
  have ht : c'.time.current_time = 0 := by
    rw [hc]; norm_num [Desc.meaning, shipped, litI, Lit.value, fracValue]
  have hdt : c'.time.delta_t = 1 / 10 ^ 13 := by
    rw [hc]; norm_num [Desc.meaning, shipped, litE, Lit.value, fracValue]
  have hdur : c'.beamSetup.duration = 1 / 10 ^ 10 := by
    rw [hc]; norm_num [Config.beamSetup, Desc.meaning, shipped, litE, litF, Lit.value, fracValue]
  have hq : c'.beamSetup.charge ≠ 0 := by
    rw [hc]; norm_num [Config.beamSetup, Desc.meaning, shipped, EL_CHARGE]
  have hnb : c'.beamSetup.number_bunches = 2 := by rw [hc]; rfl
  have hnum : c'.beamSetup.number = if debug then 10 ^ 4 else 10 ^ 6 := by
    rw [hc]
    cases debug <;> norm_num [Config.beamSetup, Desc.meaning, shipped, litE, Lit.value, fracValue] <;> rfl
  have hper : 0 < perStep c'.beamSetup.toBunchCfg (1 / 10 ^ 13) := by
    unfold perStep
    rw [hdur, hnum]
    have : ⌈((1 : ℝ) / 10 ^ 10) / (1 / 10 ^ 13)⌉ = 1000 := by
      rw [show ((1 : ℝ) / 10 ^ 10) / (1 / 10 ^ 13) = ((1000 : ℤ) : ℝ) by norm_num, Int.ceil_intCast]
    rw [this]
    cases debug <;> norm_num
  have hn0 : 0 < c'.beamSetup.number := by rw [hnum]; cases debug <;> norm_num
  have hpl := (C79_plasma_partial G' hv hnr hnz c'.species (by rw [hc]; exact shipped_species debug)).2.2
  refine ⟨c', G', hload, hg, ?_, ?_⟩
  · obtain ⟨f, hf⟩ := fresh_exists G' c'.beamSetup
    obtain ⟨⟨bs, h⟩, -⟩ := injectAll_total (G := G') (B := c'.beamSetup.toBunchCfg) (t := c'.time.current_time)
      (dt := c'.time.delta_t) (by rw [hdt]; norm_num) hP.duration_pos
      (create c'.beamSetup.toBeamCfg c'.time.current_time f ⟨0, []⟩).bunches
    exact ⟨_, .ok f bs hf (Or.inr ⟨by simp, rfl⟩) h⟩
  · intro S hS tbl m hm b hb
    rw [ht, hdt] at hb
    have hlive : ∃ o ∈ b.bunches, (o.ps 0).alive = true := by
      cases hb with
      | ok fresh bs hf hcl hi =>
        have h3 := injectAll_forall2 hi rfl
        unfold create at h3
        rw [if_pos (by rw [hnb]; norm_num)] at h3
        dsimp only at h3
        simp only [List.nil_append] at h3
        obtain ⟨x, X, ⟨-, hx⟩, hX, rfl⟩ := List.forall₂_cons_left_iff.1 h3
        refine ⟨x, by simp, ?_⟩
        obtain ⟨u, -, -, e⟩ := inject_effect (by norm_num) hx 0
        rw [if_pos] at e
        · rw [e]; rfl
        · have hb0 : BunchCfg.begin c'.beamSetup.toBunchCfg 0 = 0 := by simp [BunchCfg.begin]
          refine ⟨⟨by rw [hb0], ?_⟩, hn0, ?_, ?_⟩
          · unfold BunchCfg.finish
            rw [hb0, hdur]
            norm_num
          · rw [hb0]; simp
          · rw [hb0]
            simpa using hper
    obtain ⟨o, ho, hal⟩ := hlive
    refine C89_injection_violated G' hv hnz c'.beamSetup hP hq 0 (1 / 10 ^ 13) (by norm_num) hdz S ?_ (hz S hS) tbl m hm b hb o
      ho 0 hn0 hal
    intro p hp _
    obtain ⟨-, ⟨r1, r2, r3, r4⟩, -⟩ := (hpl S hS).2 p hp
    have := hv.dr_pos
    have := hv.dz_pos
    refine ⟨?_, ?_, ?_, ?_⟩ <;> linarith

/-! ## Charges at rest -/

theorem unmoved_share {G : Geom} {ps ps' : List Particle} (h : List.Forall₂ Unmoved ps ps') (i k : ℤ) :
    liveShare G ps' i k = liveShare G ps i k := by
  induction h with
  | nil => rfl
  | @cons p p' ps ps' h _ ih =>
    obtain ⟨e1, e2, e3, e4, e5⟩ := h
    have c1 : liveShare G (p :: ps) i k = liveShare G [p] i k + liveShare G ps i k := liveShare_append G [p] ps i k
    have c2 : liveShare G (p' :: ps') i k = liveShare G [p'] i k + liveShare G ps' i k := liveShare_append G [p'] ps' i k
    rw [c1, c2, ih]
    congr 1
    by_cases ha : p.alive = true
    · have ha' : p'.alive = true := by rw [e1]; exact ha
      simp [liveShare, ha, ha', e2, e4]
    · have ha' : ¬ p'.alive = true := by rw [e1]; exact ha
      simp [liveShare, ha, ha']

/-- **C90: charges at rest do not act on each other.** With the configuration `unequal` the plasma can come out of the draws at
rest and with a charge density that is not zero. With every pusher and every time step, the program then makes as many cycles as it
is told to; no macroparticle ever moves, no field ever appears, although there are charges. -/
theorem C90_coulomb_violated : ∃ S, InitPlasma demoGeom unequal (some S) ∧ rhoOf demoGeom (parts S) 0 0 ≠ 0 ∧
    ∀ tbl m, Started demoGeom tbl m → ∀ mode dt n,
      (∃ m' S', Reaches demoGeom mode dt (fun _ S => S) n m S m' S') ∧
      ∀ m' S', Reaches demoGeom mode dt (fun _ S => S) n m S m' S' →
        FieldFree demoGeom m' ∧ List.Forall₂ Unmoved (parts S) (parts S') ∧ rhoOf demoGeom (parts S') 0 0 ≠ 0 := by
  have hnr : 3 ≤ demoGeom.nr := by norm_num [demoGeom]
  have hnz : 3 ≤ demoGeom.nz := by norm_num [demoGeom]
  have hu : ∀ sp ∈ unequal, sp.Usable := by
    intro sp hsp
    simp only [unequal, List.mem_cons, List.not_mem_nil, or_false] at hsp
    rcases hsp with rfl | rfl
    · exact ⟨by norm_num, by norm_num, by norm_num, by norm_num, by norm_num, by norm_num, good_one⟩
    · exact ⟨by norm_num, by norm_num, by norm_num, by norm_num, by norm_num, by norm_num, good_tenth⟩
  obtain ⟨S, h1, h2⟩ := C90_reachable demoGeom demoGeom_valid hnr hnz unequal hu
  have h0 := C89_numbers_violated.2.2 S h1
  refine ⟨S, h1, h0, fun tbl m hm mode dt n => ?_⟩
  obtain ⟨k1, k2⟩ := C90_run demoGeom demoGeom_valid hnr hnz mode dt m S (started_free demoGeom_valid hm)
    (fun p hp => (h2 p hp).1) n
  refine ⟨k1, fun m' S' h => ?_⟩
  obtain ⟨a, b, -⟩ := k2 m' S' h
  refine ⟨a, b, ?_⟩
  have hdr := demoGeom_valid.dr_pos
  have hdz := demoGeom_valid.dz_pos
  have hin : ∀ p ∈ parts S, p.alive = true → 0 ≤ p.pos.c0 ∧ p.pos.c0 ≤ demoGeom.r_size ∧ 0 ≤ p.pos.c2 ∧
      p.pos.c2 ≤ demoGeom.z_size := by
    intro p hp ha
    obtain ⟨⟨i1, i2, i3, i4⟩, -⟩ := (h2 p hp).1 ha
    refine ⟨?_, ?_, ?_, ?_⟩ <;> linarith
  have hin' : ∀ p ∈ parts S', p.alive = true → 0 ≤ p.pos.c0 ∧ p.pos.c0 ≤ demoGeom.r_size ∧ 0 ≤ p.pos.c2 ∧
      p.pos.c2 ≤ demoGeom.z_size := by
    intro p' hp' ha
    obtain ⟨p, hp, e1, e2, -⟩ := forall2_right b hp'
    rw [e2]
    exact hin p hp (by rw [← e1]; exact ha)
  have hg : InGrid demoGeom.nr demoGeom.nz 0 0 := ⟨le_refl _, by norm_num [demoGeom], le_refl _, by norm_num [demoGeom]⟩
  have s1 := rhoOf_share demoGeom_valid hin hg
  have s2 := rhoOf_share demoGeom_valid hin' hg
  rw [unmoved_share b, ← s1] at s2
  have hv := (nodeVolume_pos demoGeom demoGeom_valid (a := 0) le_rfl).ne'
  rw [mul_right_cancel₀ hv s2]
  exact h0

/-! ## The hypotheses are met -/

/-- two species that cancel -/
noncomputable def pair : List SpecieSettings :=
  [⟨"electrons".toList, -1, 1, 2, 1, 1, 1⟩, ⟨"ions".toList, 1, 1836, 2, 1, 1, 1 / 10⟩]

theorem pair_usable : ∀ sp ∈ pair, sp.Usable := by
  intro sp hsp
  simp only [pair, List.mem_cons, List.not_mem_nil, or_false] at hsp
  rcases hsp with rfl | rfl
  · exact ⟨by norm_num, by norm_num, by norm_num, by norm_num, by norm_num, by norm_num, good_one⟩
  · exact ⟨by norm_num, by norm_num, by norm_num, by norm_num, by norm_num, by norm_num, good_tenth⟩

/-- Hypotheses of `C89_closed_run_partial`: a run of a hundred cycles from the start. -/
example : ∃ (m : ℕ → Mem Loc) (S : ℕ → List Species), Started demoGeom (fun _ _ => none) (m 0) ∧
    InitPlasma demoGeom pair (some (S 0)) ∧
    (∀ j < 100, Cycle demoGeom .borisRelativistic 1e-9 (m j) (S j) (m (j + 1)) (S (j + 1))) ∧
    (∀ j < 100, List.Forall₂ (fun p p' => p.alive = false ∨
      (p'.alive = true ∧ InChamber demoGeom p' ∧ GoodMove demoGeom p')) (parts (S j)) (parts (S (j + 1)))) := by
  have hnr : 3 ≤ demoGeom.nr := by norm_num [demoGeom]
  have hnz : 3 ≤ demoGeom.nz := by norm_num [demoGeom]
  obtain ⟨m0, hm0⟩ := (C13_setup_safe demoGeom demoGeom_valid (fun _ _ => none) (fun _ => none)).2.2
  obtain ⟨S0, hS0, hr0⟩ := C90_reachable demoGeom demoGeom_valid hnr hnz pair pair_usable
  have next : ∀ x : {x : Mem Loc × List Species // FieldFree demoGeom x.1 ∧ ∀ p ∈ parts x.2, AtRest demoGeom p},
      ∃ y : {x : Mem Loc × List Species // FieldFree demoGeom x.1 ∧ ∀ p ∈ parts x.2, AtRest demoGeom p},
        Cycle demoGeom .borisRelativistic 1e-9 x.1.1 x.1.2 y.1.1 y.1.2 := by
    rintro ⟨⟨m, S⟩, h1, h2⟩
    obtain ⟨-, m', S', h⟩ := C90_goes_on demoGeom demoGeom_valid hnr hnz .borisRelativistic 1e-9 m S h1 h2
    obtain ⟨k1, k2, -⟩ := C90_cycle demoGeom demoGeom_valid hnr hnz .borisRelativistic 1e-9 m m' S S' h1 h2 h
    exact ⟨⟨⟨m', S'⟩, k1, k2⟩, h⟩
  choose f hf using next
  obtain ⟨x, hx⟩ : ∃ x : ℕ → {x : Mem Loc × List Species // FieldFree demoGeom x.1 ∧ ∀ p ∈ parts x.2, AtRest demoGeom p},
      x = fun n => Nat.rec ⟨⟨m0, S0⟩, started_free demoGeom_valid hm0, fun p hp => (hr0 p hp).1⟩ (fun _ y => f y) n := ⟨_, rfl⟩
  have x0 : (x 0).1 = ⟨m0, S0⟩ := by rw [hx]; rfl
  have xs : ∀ n, x (n + 1) = f (x n) := fun n => by rw [hx]
  have hc : ∀ n, Cycle demoGeom .borisRelativistic 1e-9 (x n).1.1 (x n).1.2 (x (n + 1)).1.1 (x (n + 1)).1.2 :=
    fun n => by rw [xs]; exact hf (x n)
  refine ⟨fun n => (x n).1.1, fun n => (x n).1.2, by dsimp only; rw [x0]; exact hm0, by dsimp only; rw [x0]; exact hS0,
    fun j _ => hc j, fun j _ => ?_⟩
  obtain ⟨-, e⟩ := rest_cycle demoGeom_valid hnr hnz (x j).2.1 (x j).2.2 (hc j)
  dsimp only
  rw [e, parts_settle]
  obtain ⟨ps, hps⟩ : ∃ ps, ps = parts (x j).1.2 := ⟨_, rfl⟩
  have hrest := (x j).2.2
  rw [← hps] at hrest ⊢
  clear hps e
  induction ps with
  | nil => exact .nil
  | cons p ps ih =>
    refine .cons ?_ (ih fun q hq => hrest q (by simp [hq]))
    by_cases ha : p.alive = true
    · right
      obtain ⟨⟨i1, i2, i3, i4⟩, -⟩ := hrest p (by simp) ha
      have hdr := demoGeom_valid.dr_pos
      have hdz := demoGeom_valid.dz_pos
      unfold settle
      rw [if_pos ha]
      refine ⟨ha, ⟨i1, i1, ?_, ?_, ?_, ?_, ?_, ?_⟩, .rest rfl rfl⟩ <;> dsimp only <;> linarith
    · left
      simpa using ha

end Verif
