import Verif.CycleImage
import Verif.RunSafe
import Mathlib.Data.Finsupp.Basic
import Mathlib.Algebra.BigOperators.Finsupp.Basic
import Mathlib.LinearAlgebra.Finsupp.LinearCombination

/-!
# C94: how the plasma is divided into macroparticles

Runs depend on how much matter of each kind is where and moves how, and not on how it is divided into macroparticles, in which
order these are listed and to which species they belong.
-/

namespace Verif

open Classical in
/-- The mass of the live macroparticles that belong to a bunch (`b`) or not, are at `x`, move with `v` and have charge and mass
in the ratio `k` -/
noncomputable def massAt (S : List Species) (b : Bool) (x v : V3) (k : ℝ) : ℝ :=
  ((tagged S).map fun y => if y.1 = b ∧ y.2.alive = true ∧ y.2.pos = x ∧ y.2.vel = v ∧ y.2.charge = k * y.2.mass
    then y.2.mass else 0).sum

/-- The same matter at the same places with the same velocities -/
def SamePopulation (S T : List Species) : Prop := ∀ b x v k, massAt S b x v k = massAt T b x v k

/-- Live macroparticles have a mass. -/
def HasMass (S : List Species) : Prop := ∀ p ∈ parts S, p.alive = true → 0 < p.mass

/-! ## Sums over the matter -/

/-- the macroparticle of mass one of a kind -/
def unitPart (key : Bool × V3 × V3 × ℝ) : Particle := ⟨true, key.2.1, V3.zero, key.2.2.1, key.2.2.2, 1, 0, 0⟩

/-- kind, place and velocity -/
noncomputable def keyOf (y : Bool × Particle) : Bool × V3 × V3 × ℝ := (y.1, y.2.pos, y.2.vel, y.2.charge / y.2.mass)

/-- sum over the live macroparticles -/
noncomputable def liveSum (l : List (Bool × Particle)) (f : Bool × V3 × V3 × ℝ → ℝ) : ℝ :=
  (l.map fun y => if y.2.alive = true then y.2.mass * f (keyOf y) else 0).sum

/-- the masses as a function of the key -/
noncomputable def popOf (l : List (Bool × Particle)) : (Bool × V3 × V3 × ℝ) →₀ ℝ :=
  (l.map fun y => if y.2.alive = true then Finsupp.single (keyOf y) y.2.mass else 0).sum

theorem liveSum_pop (l : List (Bool × Particle)) (f : Bool × V3 × V3 × ℝ → ℝ) :
    liveSum l f = Finsupp.linearCombination ℝ f (popOf l) := by
  unfold liveSum popOf
  induction l with
  | nil => simp
  | cons y l ih =>
    rw [List.map_cons, List.sum_cons, List.map_cons, List.sum_cons, map_add, ← ih]
    congr 1
    split_ifs
    · rw [Finsupp.linearCombination_single, smul_eq_mul]
    · rw [map_zero]

theorem popOf_apply {S : List Species} (hS : HasMass S) (b : Bool) (x v : V3) (k : ℝ) :
    popOf (tagged S) (b, x, v, k) = massAt S b x v k := by
  have key : ∀ l : List (Bool × Particle), (∀ y ∈ l, y.2.alive = true → 0 < y.2.mass) →
      popOf l (b, x, v, k) = (l.map fun y => open Classical in if y.1 = b ∧ y.2.alive = true ∧ y.2.pos = x ∧ y.2.vel = v ∧
        y.2.charge = k * y.2.mass then y.2.mass else 0).sum := by
    classical
    intro l hl
    unfold popOf
    induction l with
    | nil => simp
    | cons y l ih =>
      rw [List.map_cons, List.sum_cons, List.map_cons, List.sum_cons, Finsupp.add_apply, ih (fun z hz => hl z (by simp [hz]))]
      congr 1
      by_cases ha : y.2.alive = true
      · have hm := hl y (by simp) ha
        rw [if_pos ha, Finsupp.single_apply]
        have e : keyOf y = (b, x, v, k) ↔
            (y.1 = b ∧ y.2.alive = true ∧ y.2.pos = x ∧ y.2.vel = v ∧ y.2.charge = k * y.2.mass) := by
          unfold keyOf
          rw [Prod.mk.injEq, Prod.mk.injEq, Prod.mk.injEq, div_eq_iff hm.ne']
          tauto
        by_cases h : keyOf y = (b, x, v, k)
        · rw [if_pos h, if_pos (e.1 h)]
        · rw [if_neg h, if_neg (fun h' => h (e.2 h'))]
      · rw [if_neg ha, if_neg (fun h => ha h.2.1)]
        rfl
  refine key (tagged S) ?_
  intro y hy ha
  refine hS y.2 ?_ ha
  rw [← tagged_parts]
  exact List.mem_map.2 ⟨y, hy, rfl⟩

/-- the same matter gives the same sums -/
theorem liveSum_same {S T : List Species} (hS : HasMass S) (hT : HasMass T) (h : SamePopulation S T)
    (f : Bool × V3 × V3 × ℝ → ℝ) : liveSum (tagged S) f = liveSum (tagged T) f := by
  have : popOf (tagged S) = popOf (tagged T) := by
    ext ⟨b, x, v, k⟩
    rw [popOf_apply hS, popOf_apply hT]
    exact h b x v k
  rw [liveSum_pop, liveSum_pop, this]

theorem tagged_mass {S : List Species} (h : HasMass S) {y : Bool × Particle} (hy : y ∈ tagged S) (ha : y.2.alive = true) :
    0 < y.2.mass := by
  refine h y.2 ?_ ha
  rw [← tagged_parts]
  exact List.mem_map.2 ⟨y, hy, rfl⟩

theorem key_eq_iff {y : Bool × Particle} (hm : 0 < y.2.mass) (b : Bool) (x v : V3) (k : ℝ) :
    keyOf y = (b, x, v, k) ↔ (y.1 = b ∧ y.2.pos = x ∧ y.2.vel = v ∧ y.2.charge = k * y.2.mass) := by
  unfold keyOf
  rw [Prod.mk.injEq, Prod.mk.injEq, Prod.mk.injEq, div_eq_iff hm.ne']

/-- matter of a kind on one side is matter of that kind on the other -/
theorem population_mem {S T : List Species} (hS : HasMass S) (hT : HasMass T) (h : SamePopulation S T)
    {t : Bool × Particle} (ht : t ∈ tagged T) (ha : t.2.alive = true) :
    ∃ s ∈ tagged S, s.2.alive = true ∧ keyOf s = keyOf t := by
  by_contra hne
  push Not at hne
  have h1 : liveSum (tagged S) (fun k => open Classical in if k = keyOf t then 1 else 0) = 0 := by
    unfold liveSum
    apply List.sum_eq_zero
    intro x hx
    obtain ⟨s, hs, rfl⟩ := List.mem_map.1 hx
    split_ifs with h1
    · beta_reduce
      rw [if_neg (hne s hs h1), mul_zero]
    · rfl
  have h2 : 0 < liveSum (tagged T) (fun k => open Classical in if k = keyOf t then 1 else 0) := by
    unfold liveSum
    have hpos : ∀ x ∈ (tagged T).map (fun y => if y.2.alive = true then
        y.2.mass * (open Classical in if keyOf y = keyOf t then (1 : ℝ) else 0) else 0), 0 ≤ x := by
      intro x hx
      obtain ⟨s, hs, rfl⟩ := List.mem_map.1 hx
      split_ifs with h1 h2
      · rw [mul_one]; exact (tagged_mass hT hs h1).le
      · rw [mul_zero]
      · exact le_rfl
    refine lt_of_lt_of_le (tagged_mass hT ht ha) ?_
    have := List.single_le_sum hpos t.2.mass (List.mem_map.2 ⟨t, ht, by rw [if_pos ha, if_pos rfl, mul_one]⟩)
    exact this
  rw [liveSum_same hS hT h] at h1
  linarith

/-! ## The cycle of a kind of matter -/

theorem partCycle_unique {G : Geom} {F : Fields} {mode : PusherMode} (hmode : mode ≠ .borisAdaptive) {dt : ℝ} {b : Bool}
    {p p1 p2 : Particle} {K1 K2 : List JCall} (h1 : PartCycle G F mode dt b p K1 p1) (h2 : PartCycle G F mode dt b p K2 p2) :
    K1 = K2 ∧ p1 = p2 := by
  obtain ⟨-, g, q, a1, q1, la, lc, a2, a3, a4, rfl, rfl⟩ := h1
  obtain ⟨-, g', q', b1, q1', la', lc', b2, b3, b4, rfl, rfl⟩ := h2
  have e : stepVSingle G F mode g' dt p = stepVSingle G F mode g dt p := by
    unfold stepVSingle
    rw [push_garbage hmode g' g]
  rw [e, a1, Option.some.injEq] at b1
  subst b1
  rw [a3, Option.some.injEq] at b3
  subst b3
  rw [a2, Option.some.injEq] at b2
  rw [a4, Option.some.injEq] at b4
  subst b2
  subst b4
  exact ⟨rfl, rfl⟩

theorem samePart_symm {p q : Particle} (h : SamePart p q) : SamePart q p :=
  ⟨h.alive.symm, h.pos.symm, h.vel.symm, h.charge.symm, h.mass.symm⟩

theorem samePart_trans {p q r : Particle} (h : SamePart p q) (h' : SamePart q r) : SamePart p r :=
  ⟨h.alive.trans h'.alive, h.pos.trans h'.pos, h.vel.trans h'.vel, h.charge.trans h'.charge, h.mass.trans h'.mass⟩

theorem samePart_image {p q : Particle} (w a b : ℝ) (h : SamePart p q) : SamePart (imageOf w a b p) (imageOf w a b q) := by
  refine ⟨h.alive, ?_, ?_, ?_, ?_⟩
  · simp only [imageOf, h.pos]
  · simp only [imageOf, h.vel]
  · simp only [imageOf, h.charge]
  · simp only [imageOf, h.mass]

theorem unit_weight {y : Bool × Particle} (ha : y.2.alive = true) (hm : 0 < y.2.mass) :
    SamePart (imageOf y.2.mass 1 1 (unitPart (keyOf y))) y.2 := by
  refine ⟨ha.symm, ?_, ?_, ?_, ?_⟩
  · simp [imageOf, unitPart, keyOf]
  · simp [imageOf, unitPart, keyOf]
  · simp only [imageOf, unitPart, keyOf]
    rw [mul_div_cancel₀ _ hm.ne']
  · simp [imageOf, unitPart]

theorem weight_unit {y : Bool × Particle} (ha : y.2.alive = true) (hm : 0 < y.2.mass) :
    SamePart (imageOf (1 / y.2.mass) 1 1 y.2) (unitPart (keyOf y)) := by
  refine ⟨ha, ?_, ?_, ?_, ?_⟩
  · simp [imageOf, unitPart, keyOf]
  · simp [imageOf, unitPart, keyOf]
  · simp only [imageOf, unitPart, keyOf]
    rw [one_div, inv_mul_eq_div]
  · simp only [imageOf, unitPart]
    rw [mul_one, one_div, inv_mul_cancel₀ hm.ne']

theorem vals_one (G : Geom) (F : Fields) : ∀ r z, InRegion G r z → valE G F r z = ⟨1 * (valE G F r z).c0,
    1 * (1 * (valE G F r z).c1), 1 * (valE G F r z).c2⟩ ∧ valH G F r z = ⟨1 * (1 * (valH G F r z).c0),
    1 * (valH G F r z).c1, 1 * (1 * (valH G F r z).c2)⟩ := by
  intro r z _
  simp only [one_mul, and_self]

theorem partCycle_weight {G : Geom} {F : Fields} {mode : PusherMode} {dt : ℝ} {b : Bool} {p p' : Particle} {K : List JCall}
    {w : ℝ} (hw : w ≠ 0) (h : PartCycle G F mode dt b p K p') :
    PartCycle G F mode dt b (imageOf w 1 1 p) (K.map (imageCall w 1)) (imageOf w 1 1 p') :=
  partCycle_image hw one_ne_zero (by norm_num) (fun _ => by norm_num) (vals_one G F) h

/-- What a row of the result says, when `U` and `N` are the increments and the state afterwards of the matter of each kind -/
def KindRow (G : Geom) (F : Fields) (mode : PusherMode) (dt : ℝ) (U : Bool × V3 × V3 × ℝ → List JCall)
    (N : Bool × V3 × V3 × ℝ → Particle) (y : Bool × Particle) (r : Bool × List JCall × Particle) : Prop :=
  CycleRow G F mode dt y r ∧
    (y.2.alive = true → r.2.1 = (U (keyOf y)).map (imageCall y.2.mass 1) ∧ SamePart (imageOf y.2.mass 1 1 (N (keyOf y))) r.2.2) ∧
    (¬ y.2.alive = true → r.2.1 = [] ∧ r.2.2 = y.2)

theorem dead_row {G : Geom} {F : Fields} {mode : PusherMode} {dt : ℝ} {b : Bool} {p p' : Particle} {K : List JCall}
    (ha : ¬ p.alive = true) : PartCycle G F mode dt b p K p' ↔ K = [] ∧ p' = p := by
  constructor
  · rintro ⟨-, g, q, a1, q1, la, lc, a2, a3, a4, rfl, rfl⟩
    unfold stepVSingle at a1
    rw [if_neg ha, Option.some.injEq] at a1
    subst a1
    unfold azimuthalCalls at a2
    rw [if_neg ha, Option.some.injEq] at a2
    subst a2
    unfold moveHalfReflectSingle at a3
    rw [if_neg ha, Option.some.injEq] at a3
    subst a3
    unfold moveCalls at a4
    rw [if_neg ha, Option.some.injEq] at a4
    subst a4
    unfold backVelocitySingle
    rw [if_neg ha]
    exact ⟨rfl, rfl⟩
  · rintro ⟨rfl, rfl⟩
    refine ⟨fun h => absurd h ha, true, p', ?_, p', [], [], ?_, ?_, ?_, rfl, ?_⟩
    · unfold stepVSingle; rw [if_neg ha]
    · unfold azimuthalCalls; rw [if_neg ha]
    · unfold moveHalfReflectSingle; rw [if_neg ha]
    · unfold moveCalls; rw [if_neg ha]
    · unfold backVelocitySingle; rw [if_neg ha]

/-- the rows of a cycle by kind -/
theorem kind_rows {G : Geom} {F : Fields} {mode : PusherMode} (hmode : mode ≠ .borisAdaptive) {dt : ℝ} {S T : List Species}
    (hS : HasMass S) (hT : HasMass T) (h : SamePopulation S T) {R : List (Bool × List JCall × Particle)}
    (hR : List.Forall₂ (CycleRow G F mode dt) (tagged S) R) : ∃ U N,
      List.Forall₂ (KindRow G F mode dt U N) (tagged S) R ∧ ∃ Q, List.Forall₂ (KindRow G F mode dt U N) (tagged T) Q := by
  classical
  obtain ⟨U, N, hUN⟩ : ∃ (U : Bool × V3 × V3 × ℝ → List JCall) (N : Bool × V3 × V3 × ℝ → Particle), ∀ key,
      (∃ K p', PartCycle G F mode dt key.1 (unitPart key) K p') →
      PartCycle G F mode dt key.1 (unitPart key) (U key) (N key) := by
    refine ⟨fun key => if h : ∃ K p', PartCycle G F mode dt key.1 (unitPart key) K p' then h.choose else [],
      fun key => if h : ∃ K p', PartCycle G F mode dt key.1 (unitPart key) K p' then h.choose_spec.choose else unitPart key, ?_⟩
    intro key h
    beta_reduce
    rw [dif_pos h, dif_pos h]
    exact h.choose_spec.choose_spec
  have toUnit : ∀ y r, y.2.alive = true → 0 < y.2.mass → CycleRow G F mode dt y r →
      PartCycle G F mode dt y.1 (unitPart (keyOf y)) (U (keyOf y)) (N (keyOf y)) := by
    intro y r ha hm hr
    have h1 := partCycle_weight (w := 1 / y.2.mass) (one_div_ne_zero hm.ne') hr.2
    obtain ⟨q', h2, -⟩ := partCycle_same (weight_unit ha hm) h1
    exact hUN (keyOf y) ⟨_, _, h2⟩
  have toRow : ∀ y, y.2.alive = true → 0 < y.2.mass →
      PartCycle G F mode dt y.1 (unitPart (keyOf y)) (U (keyOf y)) (N (keyOf y)) →
      ∃ p', PartCycle G F mode dt y.1 y.2 ((U (keyOf y)).map (imageCall y.2.mass 1)) p' ∧
        SamePart (imageOf y.2.mass 1 1 (N (keyOf y))) p' := by
    intro y ha hm hu
    exact partCycle_same (unit_weight ha hm) (partCycle_weight hm.ne' hu)
  refine ⟨U, N, ?_, ?_⟩
  · have : List.Forall₂ (fun y r => y ∈ tagged S ∧ CycleRow G F mode dt y r) (tagged S) R := by
      refine List.forall₂_iff_get.2 ⟨hR.length_eq, ?_⟩
      intro i h1 h2
      exact ⟨List.get_mem _ _, (List.forall₂_iff_get.1 hR).2 i h1 h2⟩
    refine this.imp ?_
    rintro y r ⟨hy, hr⟩
    refine ⟨hr, fun ha => ?_, fun ha => ?_⟩
    · have hm := tagged_mass hS hy ha
      obtain ⟨p', e1, e2⟩ := toRow y ha hm (toUnit y r ha hm hr)
      obtain ⟨f1, f2⟩ := partCycle_unique hmode hr.2 e1
      exact ⟨f1, f2 ▸ e2⟩
    · exact (dead_row ha).1 hr.2
  · have step : ∀ t ∈ tagged T, ∃ r, KindRow G F mode dt U N t r := by
      intro t ht
      by_cases ha : t.2.alive = true
      · have hm := tagged_mass hT ht ha
        obtain ⟨s, hs, hsa, hk⟩ := population_mem hS hT h ht ha
        obtain ⟨i, hi, rfl⟩ := List.mem_iff_getElem.1 hs
        have hr := (List.forall₂_iff_get.1 hR).2 i hi (hR.length_eq ▸ hi)
        have hu := toUnit _ _ hsa (tagged_mass hS hs hsa) hr
        have hb : (tagged S)[i].1 = t.1 := (Prod.mk.injEq _ _ _ _ ▸ hk : _ ∧ _).1
        rw [hk, hb] at hu
        obtain ⟨p', e1, e2⟩ := toRow t ha hm hu
        exact ⟨(t.1, _, p'), ⟨rfl, e1⟩, fun _ => ⟨rfl, e2⟩, fun h => absurd ha h⟩
      · exact ⟨(t.1, [], t.2), ⟨rfl, (dead_row ha).2 ⟨rfl, rfl⟩⟩, fun h => absurd h ha, fun _ => ⟨rfl, rfl⟩⟩
    have build : ∀ l : List (Bool × Particle), (∀ t ∈ l, ∃ r, KindRow G F mode dt U N t r) →
        ∃ Q, List.Forall₂ (KindRow G F mode dt U N) l Q := by
      intro l
      induction l with
      | nil => exact fun _ => ⟨[], .nil⟩
      | cons t l ih =>
        intro hl
        obtain ⟨r, hr⟩ := hl t (by simp)
        obtain ⟨Q, hQ⟩ := ih fun t ht => hl t (by simp [ht])
        exact ⟨r :: Q, .cons hr hQ⟩
    exact build _ step

/-! ## Sums over the rows -/

theorem callSum_weight (w : ℝ) (l : List JCall) (a : Arr) (i k : ℤ) :
    callSum (l.map (imageCall w 1)) a i k = w * callSum l a i k := by
  induction l with
  | nil => simp
  | cons c l ih =>
    rw [List.map_cons, callSum_cons, callSum_cons, ih, mul_add]
    congr 1
    simp only [imageCall, mul_one, ite_self]
    split_ifs <;> simp

theorem rows_callSum {G : Geom} {F : Fields} {mode : PusherMode} {dt : ℝ} {U : Bool × V3 × V3 × ℝ → List JCall}
    {N : Bool × V3 × V3 × ℝ → Particle} {l : List (Bool × Particle)} {R : List (Bool × List JCall × Particle)}
    (h : List.Forall₂ (KindRow G F mode dt U N) l R) (a : Arr) (i k : ℤ) :
    callSum (R.flatMap fun y => y.2.1) a i k = liveSum l fun key => callSum (U key) a i k := by
  induction h with
  | nil => rfl
  | @cons y r l R h _ ih =>
    rw [List.flatMap_cons, callSum_append, ih]
    unfold liveSum
    rw [List.map_cons, List.sum_cons]
    congr 1
    obtain ⟨-, h1, h2⟩ := h
    split_ifs with ha
    · rw [(h1 ha).1, callSum_weight]
    · rw [(h2 ha).1, callSum_nil]

open Classical in
/-- the mass of one macroparticle, if it is of the kind -/
noncomputable def massIf (b : Bool) (x v : V3) (k : ℝ) (c : Bool) (p : Particle) : ℝ :=
  if c = b ∧ p.alive = true ∧ p.pos = x ∧ p.vel = v ∧ p.charge = k * p.mass then p.mass else 0

theorem massAt_eq (S : List Species) (b : Bool) (x v : V3) (k : ℝ) :
    massAt S b x v k = ((tagged S).map fun y => massIf b x v k y.1 y.2).sum := rfl

theorem massIf_same {b : Bool} {x v : V3} {k : ℝ} {c : Bool} {p q : Particle} (h : SamePart p q) :
    massIf b x v k c p = massIf b x v k c q := by
  unfold massIf
  rw [h.alive, h.pos, h.vel, h.charge, h.mass]

theorem massIf_weight {b : Bool} {x v : V3} {k : ℝ} {c : Bool} {p : Particle} {w : ℝ} (hw : w ≠ 0) :
    massIf b x v k c (imageOf w 1 1 p) = w * massIf b x v k c p := by
  have e1 : (imageOf w 1 1 p).pos = p.pos := by simp [imageOf]
  have e2 : (imageOf w 1 1 p).vel = p.vel := by simp [imageOf]
  have e3 : (imageOf w 1 1 p).mass = w * p.mass := by simp [imageOf]
  have e4 : (imageOf w 1 1 p).charge = w * p.charge := rfl
  have e5 : (imageOf w 1 1 p).alive = p.alive := rfl
  have e6 : (w * p.charge = k * (w * p.mass)) ↔ p.charge = k * p.mass := by
    rw [mul_left_comm, mul_right_inj' hw]
  unfold massIf
  rw [e1, e2, e3, e4, e5]
  by_cases h : c = b ∧ p.alive = true ∧ p.pos = x ∧ p.vel = v ∧ p.charge = k * p.mass
  · rw [if_pos h, if_pos ⟨h.1, h.2.1, h.2.2.1, h.2.2.2.1, e6.2 h.2.2.2.2⟩]
  · rw [if_neg h, if_neg fun h' => h ⟨h'.1, h'.2.1, h'.2.2.1, h'.2.2.2.1, e6.1 h'.2.2.2.2⟩, mul_zero]

theorem rows_mass {G : Geom} {F : Fields} {mode : PusherMode} {dt : ℝ} {U : Bool × V3 × V3 × ℝ → List JCall}
    {N : Bool × V3 × V3 × ℝ → Particle} {l : List (Bool × Particle)} {R : List (Bool × List JCall × Particle)}
    (hm : ∀ y ∈ l, y.2.alive = true → 0 < y.2.mass) (h : List.Forall₂ (KindRow G F mode dt U N) l R) (b : Bool) (x v : V3)
    (k : ℝ) : (R.map fun r => massIf b x v k r.1 r.2.2).sum = liveSum l fun key => massIf b x v k key.1 (N key) := by
  induction h with
  | nil => rfl
  | @cons y r l R h _ ih =>
    rw [List.map_cons, List.sum_cons, ih (fun z hz => hm z (by simp [hz]))]
    unfold liveSum
    rw [List.map_cons, List.sum_cons]
    congr 1
    obtain ⟨h0, h1, h2⟩ := h
    split_ifs with ha
    · rw [← massIf_same (h1 ha).2, massIf_weight (hm y (by simp) ha).ne', h0.1]
      rfl
    · rw [(h2 ha).2]
      unfold massIf
      rw [if_neg fun h => ha h.2.1]

theorem partCycle_mass {G : Geom} {F : Fields} {mode : PusherMode} {dt : ℝ} {b : Bool} {p p' : Particle} {K : List JCall}
    (h : PartCycle G F mode dt b p K p') : p'.mass = p.mass ∧ (p'.alive = true → p.alive = true) := by
  obtain ⟨-, g, q, a1, q1, la, lc, -, a3, -, rfl, rfl⟩ := h
  have low : ∀ x : Particle, (reflectLow G x).mass = x.mass ∧ (reflectLow G x).alive = x.alive := by
    intro x; unfold reflectLow; dsimp only; split_ifs <;> exact ⟨rfl, rfl⟩
  have refl : ∀ x : Particle, (reflectionOf b G x).mass = x.mass := by
    intro x
    unfold reflectionOf
    cases b
    · simp only [Bool.false_eq_true, if_false]
      unfold reflection
      dsimp only
      rw [(low _).1]
      split_ifs <;> rfl
    · simp only [if_true]
      unfold bunchReflection
      dsimp only
      rw [(low _).1]
      split_ifs <;> rfl
  have bp : ∀ x y : Particle, backPosition x = some y → y.mass = x.mass ∧ y.alive = x.alive := by
    intro x y h
    unfold backPosition at h
    dsimp only at h
    split_ifs at h
    cases h
    exact ⟨rfl, rfl⟩
  have e1 : q.mass = p.mass ∧ q.alive = p.alive := by
    unfold stepVSingle at a1
    split_ifs at a1
    · obtain ⟨v, -, a1⟩ := Option.bind_eq_some_iff.1 a1
      have := bp _ _ a1
      exact this
    · cases a1; exact ⟨rfl, rfl⟩
  have e2 : q1.mass = q.mass ∧ (q1.alive = true → q.alive = true) := by
    unfold moveHalfReflectSingle at a3
    split_ifs at a3 with ha
    · refine ⟨?_, fun _ => ha⟩
      rw [(bp _ _ a3).1, refl]
      rfl
    · cases a3; exact ⟨rfl, id⟩
  have e3 : (backVelocitySingle q1).mass = q1.mass ∧ (backVelocitySingle q1).alive = q1.alive := by
    unfold backVelocitySingle
    split_ifs <;> exact ⟨rfl, rfl⟩
  refine ⟨e3.1.trans (e2.1.trans e1.1), fun h => ?_⟩
  rw [e3.2] at h
  rw [← e1.2]
  exact e2.2 h

theorem hasMass_tagged {S : List Species} : HasMass S ↔ ∀ y ∈ tagged S, y.2.alive = true → 0 < y.2.mass := by
  constructor
  · intro h y hy ha
    exact tagged_mass h hy ha
  · intro h p hp ha
    rw [← tagged_parts] at hp
    obtain ⟨y, hy, rfl⟩ := List.mem_map.1 hp
    exact h y hy ha

theorem rows_hasMass {G : Geom} {F : Fields} {mode : PusherMode} {dt : ℝ} {S S' : List Species}
    {R : List (Bool × List JCall × Particle)} (hS : HasMass S) (h : List.Forall₂ (CycleRow G F mode dt) (tagged S) R)
    (h' : tagged S' = R.map fun y => (y.1, y.2.2)) : HasMass S' := by
  rw [hasMass_tagged, h']
  intro z hz ha
  obtain ⟨r, hr, rfl⟩ := List.mem_map.1 hz
  obtain ⟨y, hy, hyr⟩ := forall2_right h hr
  obtain ⟨e1, e2⟩ := partCycle_mass hyr.2
  dsimp only at ha ⊢
  rw [e1]
  exact tagged_mass hS hy (e2 ha)

theorem cycle_hasMass {G : Geom} {mode : PusherMode} {dt : ℝ} {m m' : Mem Loc} {S S' : List Species} (hS : HasMass S)
    (h : Cycle G mode dt m S m' S') : HasMass S' := by
  obtain ⟨m1, m2, m3, R, -, -, c1, c2, -, -⟩ := cycle_parts h
  exact rows_hasMass hS c1 c2

theorem sameSpecies_mass {S T : List Species} (h : List.Forall₂ SameSpecies S T) : SamePopulation S T := by
  intro b x v k
  rw [massAt_eq, massAt_eq]
  congr 1
  induction h with
  | nil => rfl
  | @cons s t S T h _ ih =>
    rw [tagged_cons, tagged_cons, List.map_append, List.map_append, ih, List.map_map, List.map_map]
    congr 1
    refine forall2_map_eq' ?_ h.2
    intro p q hpq
    simp only [Function.comp, h.1]
    exact massIf_same hpq
where
  forall2_map_eq' {α β : Type} {A : α → α → Prop} {f g : α → β} (hf : ∀ x y, A x y → f x = g y) {a b : List α}
      (h : List.Forall₂ A a b) : a.map f = b.map g := by
    induction h with
    | nil => rfl
    | cons h _ ih => rw [List.map_cons, List.map_cons, hf _ _ h, ih]

theorem SamePopulation.trans {S T U : List Species} (h : SamePopulation S T) (h' : SamePopulation T U) :
    SamePopulation S U := fun b x v k => (h b x v k).trans (h' b x v k)

/-! ## The property -/

/-- **C94** (goes through). If a cycle can be completed, then it can be completed with the same matter divided into macroparticles
in any other way, listed in any other order and among other species: it leads to the same fields and currents, and to the same
matter at the same places with the same velocities. -/
theorem C94_exists_partial (G : Geom) (mode : PusherMode) (hmode : mode ≠ .borisAdaptive) (dt : ℝ) (m m' : Mem Loc)
    (S T S' : List Species) (hS : HasMass S) (hT : HasMass T) (h : SamePopulation S T) (hc : Cycle G mode dt m S m' S') :
    ∃ T', Cycle G mode dt m T m' T' ∧ SamePopulation S' T' := by
  obtain ⟨m1, m2, m3, R, r1, r2, c1, c2, c3, r5⟩ := cycle_parts hc
  obtain ⟨U, N, k1, Q, k2⟩ := kind_rows hmode hS hT h c1
  have hsum : ∀ a i k, callSum (R.flatMap fun y => y.2.1) a i k = callSum (Q.flatMap fun y => y.2.1) a i k := by
    intro a i k
    rw [rows_callSum k1, rows_callSum k2, liveSum_same hS hT h]
  have hinc : incsMem G (Q.flatMap fun y => y.2.1) m2 = some m3 := by
    obtain ⟨i1, i2⟩ := (incsMem_iff _ _ _).1 c3
    refine (incsMem_iff _ _ _).2 ⟨?_, ?_⟩
    · intro c hc
      obtain ⟨q, hq, hc⟩ := List.mem_flatMap.1 hc
      obtain ⟨t, ht, -, h1, h2⟩ := forall2_right k2 hq
      by_cases ha : t.2.alive = true
      · rw [(h1 ha).1] at hc
        obtain ⟨c0, hc0, rfl⟩ := List.mem_map.1 hc
        obtain ⟨s, hs, hsa, hk⟩ := population_mem hS hT h ht ha
        obtain ⟨r, hr, -, e1, -⟩ := forall2_left k1 hs
        have hmem : imageCall s.2.mass 1 c0 ∈ R.flatMap fun y => y.2.1 := by
          refine List.mem_flatMap.2 ⟨r, hr, ?_⟩
          rw [(e1 hsa).1, hk]
          exact List.mem_map.2 ⟨c0, hc0, rfl⟩
        have := i1 _ hmem
        exact this
      · rw [(h2 ha).1] at hc
        cases hc
    · rw [i2]
      funext x
      rw [hsum]
  obtain ⟨T', t1, t2⟩ := parts_cycle r1 r2 (k2.imp fun _ _ h => h.1) hinc r5
  refine ⟨T', t1, ?_⟩
  intro b x v k
  rw [massAt_eq, massAt_eq, c2, t2, List.map_map, List.map_map]
  have e1 := rows_mass (hasMass_tagged.1 hS) k1 b x v k
  have e2 := rows_mass (hasMass_tagged.1 hT) k2 b x v k
  rw [← liveSum_same hS hT h] at e2
  exact e1.trans e2.symm

/-- **C94** (one cycle). All completed cycles with the same matter lead to the same fields, currents and matter, however it is
divided into macroparticles and species and whatever the schedules were.
Missing: the adaptive pusher, whose branch is not determined by the macroparticle (`C88_adaptive_violated`). -/
theorem C94_cycle_partial (G : Geom) (hG : G.Valid) (mode : PusherMode) (hmode : mode ≠ .borisAdaptive) (dt : ℝ)
    (m m1 m2 : Mem Loc) (S T S1 T1 : List Species) (hm : Initialised G m) (hS : HasMass S) (hT : HasMass T)
    (h : SamePopulation S T) (h1 : Cycle G mode dt m S m1 S1) (h2 : Cycle G mode dt m T m2 T1) :
    m1 = m2 ∧ SamePopulation S1 T1 := by
  obtain ⟨T', t1, t2⟩ := C94_exists_partial G mode hmode dt m m1 S T S1 hS hT h h1
  obtain ⟨e1, e2, -⟩ := C88_cycle_partial G hG mode hmode dt m m1 m2 T T T' T1 hm
    (List.forall₂_same.2 fun s _ => ⟨rfl, List.forall₂_same.2 fun p _ => ⟨rfl, rfl, rfl, rfl, rfl⟩⟩) t1 h2
  exact ⟨e1, t2.trans (sameSpecies_mass e2)⟩

/-- **C94** (whole runs). This is so after any number of cycles, if what is injected in between is the same matter on both sides:
every state that is reached from one division of the matter can be reached from the other, and all that are reached have the
same fields, currents and matter. -/
theorem C94_run_partial (G : Geom) (hG : G.Valid) (mode : PusherMode) (hmode : mode ≠ .borisAdaptive) (dt : ℝ)
    (inj inj' : ℕ → List Species → List Species)
    (hinj : ∀ n S T, HasMass S → HasMass T → SamePopulation S T →
      HasMass (inj n S) ∧ HasMass (inj' n T) ∧ SamePopulation (inj n S) (inj' n T))
    (m : Mem Loc) (S T : List Species) (hm : Initialised G m) (hS : HasMass S) (hT : HasMass T) (h : SamePopulation S T)
    (n : ℕ) (m' : Mem Loc) (S' : List Species) (h1 : Reaches G mode dt inj n m S m' S') :
    (∃ T', Reaches G mode dt inj' n m T m' T') ∧
      ∀ m2 T', Reaches G mode dt inj' n m T m2 T' → m2 = m' ∧ SamePopulation S' T' := by
  have main : ∀ n m' S', Reaches G mode dt inj n m S m' S' → Initialised G m' ∧ HasMass S' ∧
      (∃ T', Reaches G mode dt inj' n m T m' T') ∧
      ∀ m2 T', Reaches G mode dt inj' n m T m2 T' → m2 = m' ∧ HasMass T' ∧ SamePopulation S' T' := by
    intro n
    induction n with
    | zero =>
      intro m' S' h1
      cases h1
      refine ⟨hm, hS, ⟨T, .start m T⟩, ?_⟩
      intro m2 T' h2
      cases h2
      exact ⟨rfl, hT, h⟩
    | succ n ih =>
      intro m' S' h1
      cases h1 with
      | @step _ _ mk _ _ Sk _ h1 c1 =>
      obtain ⟨i1, i2, ⟨Tk, i3⟩, i4⟩ := ih mk Sk h1
      obtain ⟨-, j1, j2⟩ := i4 _ _ i3
      obtain ⟨k1, k2, k3⟩ := hinj n Sk Tk i2 j1 j2
      obtain ⟨T', t1, t2⟩ := C94_exists_partial G mode hmode dt mk m' _ _ S' k1 k2 k3 c1
      have hinit : Initialised G m' := (C88_cycle_partial G hG mode hmode dt mk m' m' _ _ S' S' i1
        (List.forall₂_same.2 fun s _ => ⟨rfl, List.forall₂_same.2 fun p _ => ⟨rfl, rfl, rfl, rfl, rfl⟩⟩) c1 c1).2.2
      refine ⟨hinit, cycle_hasMass k1 c1, ⟨T', .step i3 t1⟩, ?_⟩
      intro m2 T2 h2
      cases h2 with
      | @step _ _ ml _ _ Tl _ h2 c2 =>
      obtain ⟨rfl, j1', j2'⟩ := i4 _ _ h2
      obtain ⟨k1', k2', k3'⟩ := hinj n Sk Tl i2 j1' j2'
      obtain ⟨e1, e2⟩ := C94_cycle_partial G hG mode hmode dt ml m' m2 _ _ S' T2 i1 k1' k2' k3' c1 c2
      exact ⟨e1.symm, cycle_hasMass k2' c2, e2⟩
  obtain ⟨-, -, a, b⟩ := main n m' S' h1
  exact ⟨a, fun m2 T' h2 => ⟨(b m2 T' h2).1, (b m2 T' h2).2.2⟩⟩

/-! ## What this covers -/

/-- the order of the macroparticles and how they are divided among species of a kind -/
theorem C94_order (S T : List Species) (h : (tagged S).Perm (tagged T)) : SamePopulation S T := by
  intro b x v k
  unfold massAt
  exact (h.map _).sum_eq

/-- one macroparticle for two of the same kind at the same place and with the same velocity -/
theorem C94_division (b : Bool) (l l' : List Particle) (p : Particle) (w w' : ℝ) (hw : w ≠ 0) (hw' : w' ≠ 0)
    (h : w + w' = 1) (q q' : Particle) (hq : SamePart q { p with charge := w * p.charge, mass := w * p.mass })
    (hq' : SamePart q' { p with charge := w' * p.charge, mass := w' * p.mass }) :
    SamePopulation [⟨b, l ++ p :: l'⟩] [⟨b, l ++ q :: q' :: l'⟩] := by
  intro c x v k
  have e : ∀ u, ({ p with charge := u * p.charge, mass := u * p.mass } : Particle) = imageOf u 1 1 p := by
    intro u; simp [imageOf]
  rw [e] at hq hq'
  rw [massAt_eq, massAt_eq]
  simp only [tagged, List.flatMap_cons, List.flatMap_nil, List.append_nil, List.map_append, List.map_cons, List.sum_append,
    List.sum_cons]
  rw [massIf_same hq, massIf_same hq', massIf_weight hw, massIf_weight hw', ← add_assoc (w * _), ← add_mul, h, one_mul]

/-- The hypotheses of C94 are met: the species of the run of C76 in another order, one macroparticle of the bunch divided into
a third and two thirds, which belong to different bunches. The thousandth cycle can be completed from both and leads to the same
fields and matter. -/
example : ∃ T : List Species, T = [⟨true, [imageOf (1 / 3) 1 1 drifter]⟩, ⟨true, [imageOf (2 / 3) 1 1 drifter, runner]⟩,
      ⟨false, [drifter]⟩] ∧ ∃ m' S' T',
    Reaches demoGeom .borisRelativistic 1e-9 (fun _ S => S) 1000 emptyMem [⟨false, [drifter]⟩, ⟨true, [runner, drifter]⟩] m' S' ∧
    Reaches demoGeom .borisRelativistic 1e-9 (fun _ S => S) 1000 emptyMem T m' T' ∧ SamePopulation S' T' := by
  refine ⟨_, rfl, ?_⟩
  have key := C76_run_safe_partial demoGeom demoGeom_valid (by norm_num [demoGeom]) (by norm_num [demoGeom])
    .borisRelativistic (Or.inl rfl) 1e-9 (by norm_num) (by norm_num [demoGeom, LIGHT_SPEED])
    (by norm_num [demoGeom, LIGHT_SPEED]) (fun _ S => S) (fun _ _ h => h) emptyMem
  have : ∀ n, ∃ m' S', Reaches demoGeom .borisRelativistic 1e-9 (fun _ S => S) n emptyMem
      [⟨false, [drifter]⟩, ⟨true, [runner, drifter]⟩] m' S' := by
    intro n
    induction n with
    | zero => exact ⟨_, _, .start _ _⟩
    | succ n ih =>
      obtain ⟨m', S', h⟩ := ih
      exact (key m' _ S' drifter_safe n h).2.2
  obtain ⟨m', S', h⟩ := this 1000
  have hS : HasMass [⟨false, [drifter]⟩, ⟨true, [runner, drifter]⟩] := by
    intro p hp _
    simp only [parts, List.flatMap_cons, List.flatMap_nil, List.cons_append, List.nil_append,
      List.mem_cons, List.not_mem_nil, or_false] at hp
    rcases hp with rfl | rfl | rfl <;> norm_num [drifter, runner]
  have hT : HasMass [⟨true, [imageOf (1 / 3) 1 1 drifter]⟩, ⟨true, [imageOf (2 / 3) 1 1 drifter, runner]⟩,
      ⟨false, [drifter]⟩] := by
    intro p hp _
    simp only [parts, List.flatMap_cons, List.flatMap_nil, List.cons_append, List.nil_append,
      List.mem_cons, List.not_mem_nil, or_false] at hp
    rcases hp with rfl | rfl | rfl | rfl <;> norm_num [drifter, runner, imageOf]
  have hp : SamePopulation [⟨false, [drifter]⟩, ⟨true, [runner, drifter]⟩] [⟨true, [imageOf (1 / 3) 1 1 drifter]⟩,
      ⟨true, [imageOf (2 / 3) 1 1 drifter, runner]⟩, ⟨false, [drifter]⟩] := by
    intro b x v k
    rw [massAt_eq, massAt_eq]
    simp only [tagged, List.flatMap_cons, List.flatMap_nil, List.append_nil, List.map_append, List.map_cons, List.map_nil,
      List.sum_append, List.sum_cons, List.sum_nil]
    rw [massIf_weight (by norm_num), massIf_weight (by norm_num)]
    ring
  obtain ⟨⟨T', h1⟩, h2⟩ := C94_run_partial demoGeom demoGeom_valid .borisRelativistic (by simp) 1e-9 (fun _ S => S)
    (fun _ S => S) (fun _ _ _ a b c => ⟨a, b, c⟩) emptyMem _ _ drifter_safe.init hS hT hp 1000 m' S' h
  exact ⟨m', S', T', h, h1, (h2 _ _ h1).2⟩

end Verif
