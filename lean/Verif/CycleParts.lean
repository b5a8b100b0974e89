import Verif.TestModeProps

/-!
# A cycle as what happens to each macroparticle

The deposition adds numbers to elements of arrays, so that the order in which the macroparticles are listed and how they are
divided into species is of no importance: a cycle (`Cycle`) is the field updates, one journey of each macroparticle
(`PartCycle`) and the sum of the increments.
-/

namespace Verif

/-! ## Specification -/

/-- All macroparticles in the order of the program, each with whether it belongs to a bunch -/
def tagged (S : List Species) : List (Bool × Particle) := S.flatMap fun s => s.ps.map fun p => (s.bunch, p)

/-! ## One macroparticle -/

/-- The second half of the cycle of a macroparticle: its increments `K` and its state afterwards -/
def PartMove (G : Geom) (dt : ℝ) (b : Bool) (q : Particle) (K : List JCall) (p' : Particle) : Prop :=
  ∃ q2 la lc, azimuthalCalls G q = some la ∧ moveHalfReflectSingle b G dt q = some q2 ∧ moveCalls G dt q2 = some lc ∧
    K = la ++ lc ∧ p' = backVelocitySingle q2

/-- The cycle of a macroparticle -/
def PartCycle (G : Geom) (F : Fields) (mode : PusherMode) (dt : ℝ) (b : Bool) (p : Particle) (K : List JCall)
    (p' : Particle) : Prop :=
  (p.alive = true → InRegion G p.pos.c0 p.pos.c2) ∧
    ∃ g q, stepVSingle G F mode g dt p = some q ∧ PartMove G dt b q K p'

/-! ## Increments in any order -/

theorem incsMem_can {G : Geom} (l : List JCall) : ∀ {m m' : Mem Loc}, incsMem G l m = some m' →
    ∀ c ∈ l, Alloc G ⟨c.arr, c.i, c.k⟩ ∧ (m ⟨c.arr, c.i, c.k⟩).isSome := by
  induction l with
  | nil => intro m m' _ c hc; cases hc
  | cons d l ih =>
    intro m m' h c hc
    have h' : (incMem G m d).bind (incsMem G l) = some m' := h
    obtain ⟨m1, h1, h2⟩ := Option.bind_eq_some_iff.1 h'
    unfold incMem at h1
    split_ifs at h1 with ha
    obtain ⟨v, hv, h1⟩ := Option.map_eq_some_iff.1 h1
    rcases List.mem_cons.1 hc with rfl | hc
    · exact ⟨ha, by rw [hv]; rfl⟩
    · obtain ⟨e1, e2⟩ := ih h2 c hc
      refine ⟨e1, ?_⟩
      rw [← h1] at e2
      by_cases hx : (⟨c.arr, c.i, c.k⟩ : Loc) = ⟨d.arr, d.i, d.k⟩
      · rw [hx, hv]; rfl
      · rwa [Function.update_of_ne hx] at e2

theorem incsMem_iff {G : Geom} (l : List JCall) (m m' : Mem Loc) : incsMem G l m = some m' ↔
    (∀ c ∈ l, Alloc G ⟨c.arr, c.i, c.k⟩ ∧ (m ⟨c.arr, c.i, c.k⟩).isSome) ∧
      m' = fun x => (m x).map (· + callSum l x.arr x.i x.k) := by
  constructor
  · intro h
    have := incsMem_can l h
    refine ⟨this, ?_⟩
    rw [incsMem_some l m this, Option.some.injEq] at h
    exact h.symm
  · rintro ⟨h, rfl⟩
    exact incsMem_some l m h

theorem incsMem_perm {G : Geom} {l l' : List JCall} (h : l.Perm l') (m : Mem Loc) : incsMem G l m = incsMem G l' m := by
  apply Option.ext
  intro m'
  rw [incsMem_iff, incsMem_iff]
  simp only [h.mem_iff, callSum_perm h]

/-! ## Species -/

theorem forall2_chain {α β γ : Type} {R : α → β → Prop} {Q : β → γ → Prop} {P : α → γ → Prop}
    (h : ∀ a b c, R a b → Q b c → P a c) {x : List α} {y : List β} (h1 : List.Forall₂ R x y) :
    ∀ {z : List γ}, List.Forall₂ Q y z → List.Forall₂ P x z := by
  induction h1 with
  | nil => intro z h2; cases h2; exact .nil
  | cons a _ ih =>
    intro z h2
    cases h2 with
    | cons b t => exact .cons (h _ _ _ a b) (ih t)

theorem perm_swap_mid {α : Type} (a b c d : List α) : (a ++ b ++ (c ++ d)).Perm (a ++ c ++ (b ++ d)) := by
  have : (b ++ (c ++ d)).Perm (c ++ (b ++ d)) := by
    rw [← List.append_assoc, ← List.append_assoc]
    exact List.Perm.append_right d List.perm_append_comm
  rw [List.append_assoc, List.append_assoc]
  exact this.append_left a

theorem seqCalls_cons_some {o : Option (List JCall)} {os : List (Option (List JCall))} {x y : List JCall}
    (h : o = some x) (h' : seqCalls os = some y) : seqCalls (o :: os) = some (x ++ y) := by
  subst h
  show (seqCalls os).map _ = _
  rw [h']; rfl

/-- one species: from the loops to the macroparticles -/
theorem species_parts {G : Geom} {dt : ℝ} {b : Bool} : ∀ (ps moved : List Particle) (la lc : List JCall),
    seqCalls (ps.map (azimuthalCalls G)) = some la →
    List.Forall₂ (fun p q => moveHalfReflectSingle b G dt p = some q) ps moved →
    seqCalls (moved.map (moveCalls G dt)) = some lc →
    ∃ L : List (List JCall × Particle), List.Forall₂ (fun q y => PartMove G dt b q y.1 y.2) ps L ∧
      moved.map backVelocitySingle = L.map Prod.snd ∧ (la ++ lc).Perm (L.flatMap Prod.fst) := by
  intro ps
  induction ps with
  | nil =>
    intro moved la lc h1 h2 h3
    cases h2
    cases h1
    cases h3
    exact ⟨[], .nil, rfl, .refl _⟩
  | cons p ps ih =>
    intro moved la lc h1 h2 h3
    cases h2 with
    | @cons _ q _ qs h2 t2 =>
    obtain ⟨x, y, e1, e2, rfl⟩ := seqCalls_cons h1
    obtain ⟨x', y', e3, e4, rfl⟩ := seqCalls_cons h3
    obtain ⟨L, i1, i2, i3⟩ := ih qs y y' e2 t2 e4
    refine ⟨(x ++ x', backVelocitySingle q) :: L, .cons ⟨q, x, x', e1, h2, e3, rfl, rfl⟩ i1, ?_, ?_⟩
    · rw [List.map_cons, List.map_cons, i2]
    · rw [List.flatMap_cons]
      exact (perm_swap_mid _ _ _ _).trans (i3.append_left _)

/-- one species: from the macroparticles to the loops -/
theorem parts_species {G : Geom} {dt : ℝ} {b : Bool} : ∀ (ps : List Particle) (L : List (List JCall × Particle)),
    List.Forall₂ (fun q y => PartMove G dt b q y.1 y.2) ps L →
    ∃ moved la lc, seqCalls (ps.map (azimuthalCalls G)) = some la ∧
      List.Forall₂ (fun p q => moveHalfReflectSingle b G dt p = some q) ps moved ∧
      seqCalls (moved.map (moveCalls G dt)) = some lc ∧ moved.map backVelocitySingle = L.map Prod.snd ∧
      (la ++ lc).Perm (L.flatMap Prod.fst) := by
  intro ps L h
  induction h with
  | nil => exact ⟨[], [], [], rfl, .nil, rfl, rfl, .refl _⟩
  | @cons q y qs L h _ ih =>
    obtain ⟨q2, x, x', e1, e2, e3, e4, e5⟩ := h
    obtain ⟨moved, la, lc, i1, i2, i3, i4, i5⟩ := ih
    refine ⟨q2 :: moved, x ++ la, x' ++ lc, seqCalls_cons_some e1 i1, .cons e2 i2, seqCalls_cons_some e3 i3, ?_, ?_⟩
    · rw [List.map_cons, List.map_cons, i4, e5]
    · rw [List.flatMap_cons, e4]
      exact (perm_swap_mid _ _ _ _).trans (i5.append_left _)

theorem tagged_cons (s : Species) (S : List Species) :
    tagged (s :: S) = (s.ps.map fun p => (s.bunch, p)) ++ tagged S := rfl

theorem tagged_parts (S : List Species) : (tagged S).map Prod.snd = parts S := by
  induction S with
  | nil => rfl
  | cons s S ih =>
    rw [tagged_cons, List.map_append, ih, List.map_map]
    show s.ps.map id ++ parts S = s.ps ++ parts S
    rw [List.map_id]

/-- what a row of `L` says about a macroparticle -/
def MoveRow (G : Geom) (dt : ℝ) (x : Bool × Particle) (y : Bool × List JCall × Particle) : Prop :=
  y.1 = x.1 ∧ PartMove G dt x.1 x.2 y.2.1 y.2.2

theorem row_tag {G : Geom} {dt : ℝ} {b : Bool} {ps : List Particle} {L : List (List JCall × Particle)}
    (h : List.Forall₂ (fun q y => PartMove G dt b q y.1 y.2) ps L) :
    List.Forall₂ (MoveRow G dt) (ps.map fun p => (b, p)) (L.map fun y => (b, y)) := by
  rw [List.forall₂_map_left_iff, List.forall₂_map_right_iff]
  exact h.imp fun _ _ h => ⟨rfl, h⟩

theorem row_untag {G : Geom} {dt : ℝ} {b : Bool} : ∀ {ps : List Particle} {R : List (Bool × List JCall × Particle)},
    List.Forall₂ (MoveRow G dt) (ps.map fun p => (b, p)) R →
    List.Forall₂ (fun q y => PartMove G dt b q y.1 y.2) ps (R.map Prod.snd) ∧ R = (R.map Prod.snd).map fun y => (b, y) := by
  intro ps
  induction ps with
  | nil => intro R h; cases h; exact ⟨.nil, rfl⟩
  | cons p ps ih =>
    intro R h
    rw [List.map_cons] at h
    cases h with
    | @cons _ y _ R h t =>
    obtain ⟨i1, i2⟩ := ih t
    refine ⟨.cons h.2 i1, ?_⟩
    rw [List.map_cons, List.map_cons, ← i2]
    congr 1
    exact Prod.ext h.1 rfl

theorem current_parts {G : Geom} {dt : ℝ} {S S' : List Species} {m m' : Mem Loc} (h : FullCurrentAll G dt S m S' m') :
    ∃ R, List.Forall₂ (MoveRow G dt) (tagged S) R ∧ tagged S' = (R.map fun y => (y.1, y.2.2)) ∧
      incsMem G (R.flatMap fun y => y.2.1) m = some m' := by
  induction h with
  | nil m => exact ⟨[], .nil, rfl, rfl⟩
  | @cons s s' S S' m m1 m' h _ ih =>
    obtain ⟨la, lc, ma, moved, a1, a2, a3, a4, a5, rfl⟩ := h
    obtain ⟨R, i1, i2, i3⟩ := ih
    obtain ⟨L, l1, l2, l3⟩ := species_parts s.ps moved la lc a1 a3 a4
    refine ⟨(L.map fun y => (s.bunch, y)) ++ R, ?_, ?_, ?_⟩
    · rw [tagged_cons]
      exact List.rel_append (row_tag l1) i1
    · rw [tagged_cons, i2, List.map_append, l2, List.map_map, List.map_map]
      rfl
    · rw [List.flatMap_append, incsMem_append, List.flatMap_map]
      have : incsMem G (L.flatMap fun y => y.1) m = some m1 := by
        rw [← incsMem_perm l3, incsMem_append, a2]
        exact a5
      rw [this]
      exact i3

theorem parts_current {G : Geom} {dt : ℝ} : ∀ {S : List Species} {m m' : Mem Loc}
    {R : List (Bool × List JCall × Particle)}, List.Forall₂ (MoveRow G dt) (tagged S) R →
    incsMem G (R.flatMap fun y => y.2.1) m = some m' →
    ∃ S', FullCurrentAll G dt S m S' m' ∧ tagged S' = R.map fun y => (y.1, y.2.2) := by
  intro S
  induction S with
  | nil =>
    intro m m' R h hm
    cases h
    cases hm
    exact ⟨[], .nil _, rfl⟩
  | cons s S ih =>
    intro m m' R h hm
    rw [tagged_cons] at h
    obtain ⟨R1, R2, h1, h2, rfl⟩ : ∃ R1 R2, List.Forall₂ (MoveRow G dt) (s.ps.map fun p => (s.bunch, p)) R1 ∧
        List.Forall₂ (MoveRow G dt) (tagged S) R2 ∧ R = R1 ++ R2 := by
      refine ⟨R.take (s.ps.map fun p => (s.bunch, p)).length, R.drop (s.ps.map fun p => (s.bunch, p)).length, ?_, ?_,
        (List.take_append_drop _ _).symm⟩
      · have := List.forall₂_take (s.ps.map fun p => (s.bunch, p)).length h
        rwa [List.take_left] at this
      · have := List.forall₂_drop (s.ps.map fun p => (s.bunch, p)).length h
        rwa [List.drop_left] at this
    obtain ⟨l1, l2⟩ := row_untag h1
    obtain ⟨L, hL⟩ : ∃ L, L = R1.map Prod.snd := ⟨_, rfl⟩
    rw [← hL] at l1 l2
    subst l2
    obtain ⟨moved, la, lc, a1, a2, a3, a4, a5⟩ := parts_species s.ps L l1
    rw [List.flatMap_append, incsMem_append, List.flatMap_map] at hm
    obtain ⟨m1, e1, e2⟩ := Option.bind_eq_some_iff.1 hm
    have e3 : incsMem G (la ++ lc) m = some m1 := by rw [incsMem_perm a5]; exact e1
    rw [incsMem_append] at e3
    obtain ⟨ma, f1, f2⟩ := Option.bind_eq_some_iff.1 e3
    obtain ⟨S', i1, i2⟩ := ih h2 e2
    refine ⟨⟨s.bunch, moved.map backVelocitySingle⟩ :: S', .cons ⟨la, lc, ma, moved, a1, f1, a2, a3, f2, rfl⟩ i1, ?_⟩
    rw [tagged_cons, i2, a4, List.map_append, List.map_map, List.map_map]
    rfl

/-! ## The push -/

/-- what a row of the push says about a macroparticle -/
def PushRow (G : Geom) (F : Fields) (mode : PusherMode) (dt : ℝ) (x y : Bool × Particle) : Prop :=
  y.1 = x.1 ∧ StepVRel G F mode dt x.2 y.2

theorem push_parts {G : Geom} {F : Fields} {mode : PusherMode} {dt : ℝ} {S S1 : List Species}
    (h : StepVAll G F mode dt S S1) : List.Forall₂ (PushRow G F mode dt) (tagged S) (tagged S1) := by
  unfold StepVAll at h
  induction h with
  | nil => exact .nil
  | cons h _ ih =>
    rw [tagged_cons, tagged_cons]
    refine List.rel_append ?_ ih
    rw [List.forall₂_map_left_iff, List.forall₂_map_right_iff]
    exact h.2.imp fun _ _ e => ⟨h.1, e⟩

theorem parts_push {G : Geom} {F : Fields} {mode : PusherMode} {dt : ℝ} : ∀ {S : List Species} {R : List (Bool × Particle)},
    List.Forall₂ (PushRow G F mode dt) (tagged S) R → ∃ S1, StepVAll G F mode dt S S1 ∧ tagged S1 = R := by
  intro S
  induction S with
  | nil => intro R h; cases h; exact ⟨[], .nil, rfl⟩
  | cons s S ih =>
    intro R h
    rw [tagged_cons] at h
    have h1 := List.forall₂_take (s.ps.map fun p => (s.bunch, p)).length h
    have h2 := List.forall₂_drop (s.ps.map fun p => (s.bunch, p)).length h
    rw [List.take_left] at h1
    rw [List.drop_left] at h2
    obtain ⟨S1, i1, i2⟩ := ih h2
    obtain ⟨R1, hR1⟩ : ∃ R1, R1 = R.take (s.ps.map fun p => (s.bunch, p)).length := ⟨_, rfl⟩
    rw [← hR1] at h1
    have key : ∀ (ps : List Particle) (R1 : List (Bool × Particle)),
        List.Forall₂ (PushRow G F mode dt) (ps.map fun p => (s.bunch, p)) R1 →
        List.Forall₂ (StepVRel G F mode dt) ps (R1.map Prod.snd) ∧ (R1.map Prod.snd).map (fun p => (s.bunch, p)) = R1 := by
      intro ps
      induction ps with
      | nil => intro R1 h; cases h; exact ⟨.nil, rfl⟩
      | cons p ps ih =>
        intro R1 h
        rw [List.map_cons] at h
        cases h with
        | @cons _ y _ R h t =>
        obtain ⟨i1, i2⟩ := ih R t
        refine ⟨.cons h.2 i1, ?_⟩
        rw [List.map_cons, List.map_cons, i2]
        congr 1
        exact Prod.ext h.1.symm rfl
    obtain ⟨k1, k2⟩ := key _ _ h1
    refine ⟨⟨s.bunch, R1.map Prod.snd⟩ :: S1, .cons ⟨rfl, k1⟩ i1, ?_⟩
    rw [tagged_cons, k2, i2, hR1, List.take_append_drop]

/-! ## The cycle -/

/-- what a row says about a macroparticle -/
def CycleRow (G : Geom) (F : Fields) (mode : PusherMode) (dt : ℝ) (x : Bool × Particle)
    (y : Bool × List JCall × Particle) : Prop := y.1 = x.1 ∧ PartCycle G F mode dt x.1 x.2 y.2.1 y.2.2

theorem forall2_split {α β γ : Type} {R : α → β → Prop} {Q : β → γ → Prop} : ∀ {x : List α} {z : List γ},
    List.Forall₂ (fun a c => ∃ b, R a b ∧ Q b c) x z → ∃ y, List.Forall₂ R x y ∧ List.Forall₂ Q y z := by
  intro x z h
  induction h with
  | nil => exact ⟨[], .nil, .nil⟩
  | cons h _ ih =>
    obtain ⟨b, h1, h2⟩ := h
    obtain ⟨y, i1, i2⟩ := ih
    exact ⟨b :: y, .cons h1 i1, .cons h2 i2⟩

theorem cycle_parts {G : Geom} {mode : PusherMode} {dt : ℝ} {m m' : Mem Loc} {S S' : List Species}
    (h : Cycle G mode dt m S m' S') : ∃ m1 m2 m3 R, RegionRun (Alloc G) (hRegion G dt) m m1 ∧
      RegionRun (Alloc G) (resetJRegion G) m1 m2 ∧ List.Forall₂ (CycleRow G (fieldsOf m2) mode dt) (tagged S) R ∧
      tagged S' = (R.map fun y => (y.1, y.2.2)) ∧ incsMem G (R.flatMap fun y => y.2.1) m2 = some m3 ∧
      RegionRun (Alloc G) (eRegion G dt) m3 m' := by
  obtain ⟨m1, m2, m3, S1, r1, r2, r3, r4, r5⟩ := h
  obtain ⟨R, c1, c2, c3⟩ := current_parts r4
  refine ⟨m1, m2, m3, R, r1, r2, ?_, c2, c3, r5⟩
  refine forall2_chain ?_ (push_parts r3) c1
  rintro x y z ⟨a1, a2, g, a3⟩ ⟨b1, b2⟩
  rw [a1] at b1 b2
  exact ⟨b1, a2, g, y.2, a3, b2⟩

theorem parts_cycle {G : Geom} {mode : PusherMode} {dt : ℝ} {m m1 m2 m3 m' : Mem Loc} {S : List Species}
    {R : List (Bool × List JCall × Particle)} (r1 : RegionRun (Alloc G) (hRegion G dt) m m1)
    (r2 : RegionRun (Alloc G) (resetJRegion G) m1 m2) (h : List.Forall₂ (CycleRow G (fieldsOf m2) mode dt) (tagged S) R)
    (h3 : incsMem G (R.flatMap fun y => y.2.1) m2 = some m3) (r5 : RegionRun (Alloc G) (eRegion G dt) m3 m') :
    ∃ S', Cycle G mode dt m S m' S' ∧ tagged S' = R.map fun y => (y.1, y.2.2) := by
  obtain ⟨Y, y1, y2⟩ : ∃ Y, List.Forall₂ (PushRow G (fieldsOf m2) mode dt) (tagged S) Y ∧
      List.Forall₂ (MoveRow G dt) Y R := by
    apply forall2_split
    refine h.imp ?_
    rintro x z ⟨a1, a2, g, q, a3, a4⟩
    exact ⟨(x.1, q), ⟨rfl, a2, g, a3⟩, a1, a4⟩
  obtain ⟨S1, s1, s2⟩ := parts_push y1
  rw [← s2] at y2
  obtain ⟨S', c1, c2⟩ := parts_current y2 h3
  exact ⟨S', ⟨m1, m2, m3, S1, r1, r2, s1, c1, r5⟩, c2⟩

end Verif
