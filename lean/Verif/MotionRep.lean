import Verif.Motion

/-!
# The particle loops compute the per-particle functions
-/

namespace Verif

open Prog (rd wr)

/-- The arrays hold position, velocity, charge, mass and liveness of `p`. -/
structure Core (st : PState) (p : Particle) : Prop where
  pos0 : st.pos0 = some p.pos.c0
  pos1 : st.pos1 = some p.pos.c1
  pos2 : st.pos2 = some p.pos.c2
  vel0 : st.vel0 = some p.vel.c0
  vel1 : st.vel1 = some p.vel.c1
  vel2 : st.vel2 = some p.vel.c2
  charge : st.charge = some p.charge
  mass : st.mass = some p.mass
  alive : ∃ a, st.alive = some a ∧ (a = 0 ↔ p.alive = false)

/-- … and also the old position and the angle. -/
structure Full (st : PState) (p : Particle) : Prop extends Core st p where
  old0 : st.old0 = some p.posOld.c0
  old2 : st.old2 = some p.posOld.c2
  sin : st.sin = some p.sinTheta

section
variable {G : Geom} {num : ℕ → ℕ} {m : Mem PLoc} {s n : ℕ} (hn : n < num s)
include hn

theorem rdP {st : PState} {c : PComp} {v : ℝ} (h : st.get c = some v) :
    (rd (PLoc.part s n c)).eval (PAlloc G num) (putPart m s n st)
      = some (v, putPart m s n st) := by
  apply Prog.eval_rd (show PAlloc G num (.part s n c) from hn)
  simp [putPart, h]

theorem wrP {st : PState} {c : PComp} {v : ℝ} :
    (wr (PLoc.part s n c) v).eval (PAlloc G num) (putPart m s n st)
      = some ((), putPart m s n (st.set c v)) := by
  rw [Prog.eval_wr (show PAlloc G num (.part s n c) from hn), putPart_update]

theorem halfStep_eval {st : PState} {p : Particle} (dt : ℝ) (h : Core st p) :
    ∃ st', (halfStepProg dt s n).eval (PAlloc G num) (putPart m s n st)
        = some ((), putPart m s n st') ∧ Core st' (halfStep dt p) ∧ st'.old0 = st.old0 ∧
        st'.old2 = st.old2 ∧ st'.sin = st.sin := by
  obtain ⟨h0, h1, h2, v0, v1, v2, hq, hm, ha⟩ := h
  unfold halfStepProg
  rw [Prog.eval_bind_some (rdP hn (c := .pos0) h0), Prog.eval_bind_some (rdP hn (c := .vel0) v0),
    Prog.eval_bind_some (wrP hn), Prog.eval_bind_some (rdP hn (c := .pos1) (v := p.pos.c1) ?_),
    Prog.eval_bind_some (rdP hn (c := .vel1) (v := p.vel.c1) ?_), Prog.eval_bind_some (wrP hn),
    Prog.eval_bind_some (rdP hn (c := .pos2) (v := p.pos.c2) ?_),
    Prog.eval_bind_some (rdP hn (c := .vel2) (v := p.vel.c2) ?_), wrP hn]
  · exact ⟨_, rfl, ⟨rfl, rfl, rfl, v0, v1, v2, hq, hm, ha⟩, rfl, rfl, rfl⟩
  all_goals first | exact h1 | exact v1 | exact h2 | exact v2

theorem backPosition_eval {st : PState} {p p' : Particle} (h : Core st p)
    (hp : backPosition p = some p') :
    ∃ st', (backPositionProg s n).eval (PAlloc G num) (putPart m s n st)
        = some ((), putPart m s n st') ∧ Core st' p' ∧ st'.old0 = st.old0 ∧
        st'.old2 = st.old2 ∧ st'.sin = some p'.sinTheta ∧ p'.posOld = p.posOld := by
  obtain ⟨h0, h1, h2, v0, v1, v2, hq, hm, ha⟩ := h
  unfold backPosition at hp
  dsimp only at hp
  split_ifs at hp with hr
  rw [Option.some.injEq] at hp
  subst hp
  unfold backPositionProg
  rw [Prog.eval_bind_some (rdP hn (c := .pos0) h0), Prog.eval_bind_some (rdP hn (c := .pos1) h1),
    if_neg hr, Prog.eval_bind_some (wrP hn), Prog.eval_bind_some (wrP hn), wrP hn]
  exact ⟨_, rfl, ⟨rfl, rfl, h2, v0, v1, v2, hq, hm, ha⟩, rfl, rfl, rfl, rfl⟩

theorem dumpOld_eval {st : PState} {p : Particle} (h : Core st p) :
    ∃ st', (dumpOldProg s n).eval (PAlloc G num) (putPart m s n st)
        = some ((), putPart m s n st') ∧ Core st' (dumpOld p) ∧ st'.old0 = some p.pos.c0 ∧
        st'.old2 = some p.pos.c2 := by
  obtain ⟨h0, h1, h2, v0, v1, v2, hq, hm, ha⟩ := h
  unfold dumpOldProg
  rw [Prog.eval_bind_some (rdP hn (c := .pos0) h0), Prog.eval_bind_some (wrP hn),
    Prog.eval_bind_some (rdP hn (c := .pos2) (v := p.pos.c2) ?_), wrP hn]
  · exact ⟨_, rfl, ⟨h0, h1, h2, v0, v1, v2, hq, hm, ha⟩, rfl, rfl⟩
  · exact h2

theorem backVelocity_eval {st : PState} {p : Particle} (h : Full st p) :
    ∃ st', (backVelocityProg s n).eval (PAlloc G num) (putPart m s n st)
        = some ((), putPart m s n st') ∧ Full st' (backVelocity p) := by
  obtain ⟨⟨h0, h1, h2, v0, v1, v2, hq, hm, ha⟩, o0, o2, hs⟩ := h
  unfold backVelocityProg
  rw [Prog.eval_bind_some (rdP hn (c := .sin) hs), Prog.eval_bind_some (wrP hn),
    Prog.eval_bind_some (rdP hn (c := .cos) rfl), 
    Prog.eval_bind_some (rdP hn (c := .vel0) (v := p.vel.c0) ?_),
    Prog.eval_bind_some (rdP hn (c := .vel1) (v := p.vel.c1) ?_), Prog.eval_bind_some (wrP hn),
    wrP hn]
  · exact ⟨_, rfl, ⟨h0, h1, h2, rfl, rfl, v2, hq, hm, ha⟩, o0, o2, hs⟩
  · exact v1
  · exact v0

theorem push_eval {F : Fields} {st : PState} {p : Particle} {v : V3} (mode : PusherMode) (g : Bool)
    (dt : ℝ) (hG : G.Valid) (hnr : 3 ≤ G.nr) (hnz : 3 ≤ G.nz) (hF : PRep G F m) (h : Core st p)
    (hin : InRegion G p.pos.c0 p.pos.c2)
    (hp : push mode g dt p.charge p.mass (valE G F p.pos.c0 p.pos.c2) (valH G F p.pos.c0 p.pos.c2)
      p.vel = some v) :
    ∃ st', (pushProg G mode g dt s n).eval (PAlloc G num) (putPart m s n st)
        = some ((), putPart m s n st') ∧ Core st' { p with vel := v } := by
  obtain ⟨h0, h1, h2, v0, v1, v2, hq, hm, ha⟩ := h
  have hF' : PRep G F (putPart m s n st) := fun l hl => hF l hl
  obtain ⟨gE, gH⟩ := gather_eval hG hnr hnz (num := num) hF' hin
  unfold pushProg
  rw [Prog.eval_bind_some (rdP hn (c := .pos0) h0), Prog.eval_bind_some (rdP hn (c := .pos2) h2),
    Prog.eval_bind_some gE, Prog.eval_bind_some gH,
    Prog.eval_bind_some (rdP hn (c := .charge) hq), Prog.eval_bind_some (rdP hn (c := .mass) hm),
    Prog.eval_bind_some (rdP hn (c := .vel0) v0), Prog.eval_bind_some (rdP hn (c := .vel1) v1),
    Prog.eval_bind_some (rdP hn (c := .vel2) v2)]
  have hp' : push mode g dt p.charge p.mass (valE G F p.pos.c0 p.pos.c2)
      (valH G F p.pos.c0 p.pos.c2) ⟨p.vel.c0, p.vel.c1, p.vel.c2⟩ = some v := hp
  simp only [hp']
  rw [Prog.eval_bind_some (wrP hn), Prog.eval_bind_some (wrP hn), wrP hn]
  exact ⟨_, rfl, ⟨h0, h1, h2, rfl, rfl, rfl, hq, hm, ha⟩⟩

/-! ### Reflection -/

/-- mirror in r -/
theorem mirror0_eval {st : PState} {p : Particle} (test : ℝ → Prop) [DecidablePred test] (w : ℝ)
    (h : Full st p) :
    ∃ st', (mirrorProg s n .pos0 .vel0 test w).eval (PAlloc G num) (putPart m s n st)
        = some ((), putPart m s n st') ∧ Full st' (if test p.pos.c0 then
      { p with pos := ⟨w - p.pos.c0, p.pos.c1, p.pos.c2⟩,
               vel := ⟨-p.vel.c0, p.vel.c1, p.vel.c2⟩ } else p) := by
  obtain ⟨⟨h0, h1, h2, v0, v1, v2, hq, hm, ha⟩, o0, o2, hs⟩ := h
  unfold mirrorProg
  rw [Prog.eval_bind_some (rdP hn (c := .pos0) h0)]
  by_cases ht : test p.pos.c0
  · simp only [if_pos ht]
    rw [Prog.eval_bind_some (wrP hn),
      Prog.eval_bind_some (rdP hn (c := .vel0) (v := p.vel.c0) ?_), wrP hn]
    swap
    · exact v0
    exact ⟨_, rfl, ⟨rfl, h1, h2, rfl, v1, v2, hq, hm, ha⟩, o0, o2, hs⟩
  · simp only [if_neg ht]
    exact ⟨st, rfl, ⟨h0, h1, h2, v0, v1, v2, hq, hm, ha⟩, o0, o2, hs⟩

/-- mirror in z -/
theorem mirror2_eval {st : PState} {p : Particle} (test : ℝ → Prop) [DecidablePred test] (w : ℝ)
    (h : Full st p) :
    ∃ st', (mirrorProg s n .pos2 .vel2 test w).eval (PAlloc G num) (putPart m s n st)
        = some ((), putPart m s n st') ∧ Full st' (if test p.pos.c2 then
      { p with pos := ⟨p.pos.c0, p.pos.c1, w - p.pos.c2⟩,
               vel := ⟨p.vel.c0, p.vel.c1, -p.vel.c2⟩ } else p) := by
  obtain ⟨⟨h0, h1, h2, v0, v1, v2, hq, hm, ha⟩, o0, o2, hs⟩ := h
  unfold mirrorProg
  rw [Prog.eval_bind_some (rdP hn (c := .pos2) h2)]
  by_cases ht : test p.pos.c2
  · simp only [if_pos ht]
    rw [Prog.eval_bind_some (wrP hn),
      Prog.eval_bind_some (rdP hn (c := .vel2) (v := p.vel.c2) ?_), wrP hn]
    swap
    · exact v2
    exact ⟨_, rfl, ⟨h0, h1, rfl, v0, v1, rfl, hq, hm, ha⟩, o0, o2, hs⟩
  · simp only [if_neg ht]
    exact ⟨st, rfl, ⟨h0, h1, h2, v0, v1, v2, hq, hm, ha⟩, o0, o2, hs⟩

/-- absorb -/
theorem kill_eval {st : PState} {p : Particle} (c : PComp) (x : ℝ) (hx : st.get c = some x)
    (test : ℝ → Prop) [DecidablePred test] (h : Full st p) :
    ∃ st', (killProg s n c test).eval (PAlloc G num) (putPart m s n st)
        = some ((), putPart m s n st') ∧
      Full st' (if test x then { p with alive := false } else p) := by
  obtain ⟨⟨h0, h1, h2, v0, v1, v2, hq, hm, ha⟩, o0, o2, hs⟩ := h
  unfold killProg
  rw [Prog.eval_bind_some (rdP hn hx)]
  by_cases ht : test x
  · simp only [if_pos ht]
    rw [wrP hn]
    exact ⟨_, rfl, ⟨h0, h1, h2, v0, v1, v2, hq, hm, 0, rfl, by simp⟩, o0, o2, hs⟩
  · simp only [if_neg ht]
    exact ⟨st, rfl, ⟨h0, h1, h2, v0, v1, v2, hq, hm, ha⟩, o0, o2, hs⟩

theorem reflectLow_eval {st : PState} {p : Particle} (h : Full st p) :
    ∃ st', (do mirrorProg s n .pos0 .vel0 (fun x => x < G.dr / 2) G.dr
               mirrorProg s n .pos2 .vel2 (fun x => x < G.dz / 2) G.dz :
              Prog PLoc Unit).eval (PAlloc G num) (putPart m s n st)
        = some ((), putPart m s n st') ∧ Full st' (reflectLow G p) := by
  obtain ⟨st1, e1, f1⟩ := mirror0_eval (G := G) (m := m) hn (fun x => x < G.dr / 2) G.dr h
  obtain ⟨st2, e2, f2⟩ := mirror2_eval (G := G) (m := m) hn (fun x => x < G.dz / 2) G.dz f1
  exact ⟨st2, by rw [Prog.eval_bind_some e1, e2], f2⟩

theorem reflection_eval {st : PState} {p : Particle} (bunch : Bool) (h : Full st p) :
    ∃ st', (reflectionProg bunch G s n).eval (PAlloc G num) (putPart m s n st)
        = some ((), putPart m s n st') ∧ Full st' (reflectionOf bunch G p) := by
  unfold reflectionProg farProg
  cases bunch
  · obtain ⟨st1, e1, f1⟩ := mirror0_eval (G := G) (m := m) hn
      (fun x => x > G.r_size - G.dr / 2) ((G.r_size - G.dr / 2) * 2) h
    obtain ⟨st2, e2, f2⟩ := mirror2_eval (G := G) (m := m) hn
      (fun x => x > G.z_size - G.dz / 2) ((G.z_size - G.dz / 2) * 2) f1
    obtain ⟨st3, e3, f3⟩ := reflectLow_eval (G := G) (m := m) hn f2
    refine ⟨st3, ?_, f3⟩
    simp only [Bool.false_eq_true, if_false]
    rw [Prog.eval_bind_some e1, Prog.eval_bind_some e2, e3]
  · obtain ⟨st1, e1, f1⟩ := kill_eval (G := G) (m := m) hn .pos0 p.pos.c0 h.pos0
      (fun x => x > G.r_size - G.dr / 2) h
    obtain ⟨st2, e2, f2⟩ := kill_eval (G := G) (m := m) hn .pos2 _ f1.pos2
      (fun x => x > G.z_size - G.dz / 2) f1
    obtain ⟨st3, e3, f3⟩ := reflectLow_eval (G := G) (m := m) hn f2
    refine ⟨st3, ?_, f3⟩
    simp only [if_true]
    rw [Prog.eval_bind_some e1, Prog.eval_bind_some e2, e3]

/-! ### Loop bodies -/

theorem ifAlive_dead {st : PState} {p : Particle} (h : Core st p) (hd : p.alive = false)
    (body : Prog PLoc Unit) : (ifAlive s n body).eval (PAlloc G num) (putPart m s n st)
      = some ((), putPart m s n st) := by
  obtain ⟨a, h1, h2⟩ := h.alive
  unfold ifAlive
  rw [Prog.eval_bind_some (rdP hn (c := .alive) h1), if_pos (h2.2 hd)]; rfl

theorem ifAlive_live {st : PState} {p : Particle} (h : Core st p) (hd : p.alive = true)
    (body : Prog PLoc Unit) : (ifAlive s n body).eval (PAlloc G num) (putPart m s n st)
      = body.eval (PAlloc G num) (putPart m s n st) := by
  obtain ⟨a, h1, h2⟩ := h.alive
  unfold ifAlive
  rw [Prog.eval_bind_some (rdP hn (c := .alive) h1), if_neg]
  intro h0; rw [h2.1 h0] at hd; cases hd

theorem stepV_iter {F : Fields} {p p' : Particle} (mode : PusherMode) (g : ℕ → Bool)
    (dt : ℝ) (hG : G.Valid) (hnr : 3 ≤ G.nr) (hnz : 3 ≤ G.nz) (hF : PRep G F m)
    (h : Core (partAt m s n) p) (hin : p.alive = true → InRegion G p.pos.c0 p.pos.c2)
    (hp : stepVSingle G F mode (g n) dt p = some p') :
    ∃ st', solo (PAlloc G num) (stepVLoop G mode g dt s (num s) n) m = some (putPart m s n st') ∧
      Core st' p' ∧ (p.alive = true → Full st' p') ∧ (p.alive = false → st' = partAt m s n) := by
  unfold stepVLoop partLoop
  rw [if_pos hn, solo_eq_eval]
  conv => enter [1, st', 1, 1, 2]; rw [← putPart_partAt m s n]
  cases ha : p.alive
  · rw [ifAlive_dead hn h ha]
    unfold stepVSingle at hp
    rw [ha] at hp
    simp only [Bool.false_eq_true, if_false, Option.some.injEq] at hp
    subst hp
    exact ⟨_, rfl, h, by simp, fun _ => rfl⟩
  · rw [ifAlive_live hn h ha]
    unfold stepVSingle at hp
    rw [if_pos ha] at hp
    cases hv : push mode (g n) dt p.charge p.mass (valE G F p.pos.c0 p.pos.c2)
        (valH G F p.pos.c0 p.pos.c2) p.vel with
    | none => rw [hv] at hp; cases hp
    | some v =>
      rw [hv, Option.bind_some] at hp
      obtain ⟨st1, e1, c1⟩ := push_eval hn mode (g n) dt hG hnr hnz hF h (hin ha) hv
      obtain ⟨st2, e2, c2, o0, o2⟩ := dumpOld_eval (G := G) (m := m) hn c1
      obtain ⟨st3, e3, c3, o0', o2', -⟩ := halfStep_eval (G := G) (m := m) hn dt c2
      obtain ⟨st4, e4, c4, o0'', o2'', hs, hold⟩ := backPosition_eval (G := G) (m := m) hn c3 hp
      refine ⟨st4, ?_, c4, fun _ => ⟨c4, ?_, ?_, hs⟩, by simp⟩
      · rw [Prog.eval_bind_some e1, Prog.eval_bind_some e2, Prog.eval_bind_some e3, e4]; rfl
      · rw [o0'', o0', o0, hold]; rfl
      · rw [o2'', o2', o2, hold]; rfl

theorem move_iter {p p' : Particle} (bunch : Bool) (dt : ℝ)
    (h : Core (partAt m s n) p) (hf : p.alive = true → Full (partAt m s n) p)
    (hp : moveHalfReflectSingle bunch G dt p = some p') :
    ∃ st', solo (PAlloc G num) (moveHalfReflectLoop bunch G dt s (num s) n) m
        = some (putPart m s n st') ∧
      Core st' p' ∧ (p.alive = true → Full st' p') ∧ (p.alive = false → st' = partAt m s n) := by
  unfold moveHalfReflectLoop partLoop
  rw [if_pos hn, solo_eq_eval]
  conv => enter [1, st', 1, 1, 2]; rw [← putPart_partAt m s n]
  cases ha : p.alive
  · rw [ifAlive_dead hn h ha]
    unfold moveHalfReflectSingle at hp
    rw [ha] at hp
    simp only [Bool.false_eq_true, if_false, Option.some.injEq] at hp
    subst hp
    exact ⟨_, rfl, h, by simp, fun _ => rfl⟩
  · rw [ifAlive_live hn h ha]
    unfold moveHalfReflectSingle at hp
    rw [if_pos ha] at hp
    obtain ⟨st3, e3, c3, o0', o2', hs'⟩ := halfStep_eval (G := G) (m := m) hn dt h
    have f3 : Full st3 (halfStep dt p) :=
      ⟨c3, by rw [o0', (hf ha).old0]; rfl, by rw [o2', (hf ha).old2]; rfl,
        by rw [hs', (hf ha).sin]; rfl⟩
    obtain ⟨st4, e4, f4⟩ := reflection_eval (G := G) (m := m) hn bunch f3
    obtain ⟨st5, e5, c5, o0, o2, hs, hold⟩ := backPosition_eval (G := G) (m := m) hn f4.toCore hp
    refine ⟨st5, ?_, c5, fun _ => ⟨c5, ?_, ?_, hs⟩, by simp⟩
    · rw [Prog.eval_bind_some e3, Prog.eval_bind_some e4, e5]; rfl
    · rw [o0, f4.old0, hold]
    · rw [o2, f4.old2, hold]

theorem backV_iter {p : Particle}
    (h : Core (partAt m s n) p) (hf : p.alive = true → Full (partAt m s n) p) :
    ∃ st', solo (PAlloc G num) (backVelocityLoop s (num s) n) m = some (putPart m s n st') ∧
      Core st' (backVelocitySingle p) ∧ (p.alive = true → Full st' (backVelocitySingle p)) ∧
      (p.alive = false → st' = partAt m s n) := by
  unfold backVelocityLoop partLoop backVelocitySingle
  rw [if_pos hn, solo_eq_eval]
  conv => enter [1, st', 1, 1, 2]; rw [← putPart_partAt m s n]
  cases ha : p.alive
  · rw [ifAlive_dead hn h ha]
    simp only [Bool.false_eq_true, if_false]
    exact ⟨_, rfl, h, by simp, fun _ => rfl⟩
  · rw [ifAlive_live hn h ha]
    obtain ⟨st', e, f⟩ := backVelocity_eval (G := G) (m := m) hn (hf ha)
    simp only [if_true]
    exact ⟨st', by rw [e]; rfl, f.toCore, fun _ => f, by simp⟩

end

/-! ## Whole loops -/

/-- The arrays of species `s` hold the particles `ps`. -/
def SpeciesRep (m : Mem PLoc) (s num : ℕ) (ps : ℕ → Particle) : Prop :=
  ∀ n, n < num → Core (partAt m s n) (ps n)

/-- … including old positions and angles of the live ones. -/
def SpeciesFull (m : Mem PLoc) (s num : ℕ) (ps : ℕ → Particle) : Prop :=
  ∀ n, n < num → (ps n).alive = true → Full (partAt m s n) (ps n)

theorem partAt_putAll {m : Mem PLoc} {s num : ℕ} {st : ℕ → PState} {n : ℕ} (hn : n < num) :
    partAt (putAll m s num st) s n = st n := by
  unfold partAt putAll
  simp [hn, PState.get]

theorem putAll_other {m : Mem PLoc} {s num : ℕ} {st : ℕ → PState} {l : PLoc}
    (h : ∀ n c, l ≠ .part s n c) : putAll m s num st l = m l := by
  cases l with
  | part s' n c =>
    simp only [putAll]
    rw [if_neg]
    rintro ⟨rfl, -⟩
    exact h n c rfl
  | fld l => rfl
  | exit => rfl

/-- what every loop theorem below gives -/
structure LoopResult (alloc : PLoc → Prop) [DecidablePred alloc] (P : ℕ → Task PLoc) (m m' : Mem PLoc)
    (s num : ℕ) (ps ps' : ℕ → Particle) : Prop where
  spec : LoopSpec alloc P m m'
  rep : SpeciesRep m' s num ps'
  full : ∀ n, n < num → (ps n).alive = true → Full (partAt m' s n) (ps' n)
  dead : ∀ n, n < num → (ps n).alive = false → partAt m' s n = partAt m s n
  other : ∀ l, (∀ n c, l ≠ .part s n c) → m' l = m l

theorem loopResult_of_iter {alloc : PLoc → Prop} [DecidablePred alloc] {m : Mem PLoc} {s num : ℕ}
    {ps ps' : ℕ → Particle} {body : ℕ → Prog PLoc Unit}
    (hl : ∀ n, LocalTo s n (partLoop s num body n))
    (h : ∀ n, n < num → ∃ st', solo alloc (partLoop s num body n) m = some (putPart m s n st') ∧
      Core st' (ps' n) ∧ ((ps n).alive = true → Full st' (ps' n)) ∧
      ((ps n).alive = false → st' = partAt m s n)) :
    ∃ m', LoopResult alloc (partLoop s num body) m m' s num ps ps' := by
  choose st h1 h2 h3 h4 using h
  let st' : ℕ → PState := fun n => if hn : n < num then st n hn else partAt m s n
  have e : ∀ n (hn : n < num), st' n = st n hn := fun n hn => by simp [st', hn]
  refine ⟨putAll m s num st', partLoop_spec alloc hl m st' ?_, ?_, ?_, ?_, ?_⟩
  · intro n hn; rw [e n hn]; exact h1 n hn
  · intro n hn; rw [partAt_putAll hn, e n hn]; exact h2 n hn
  · intro n hn; rw [partAt_putAll hn, e n hn]; exact h3 n hn
  · intro n hn; rw [partAt_putAll hn, e n hn]; exact h4 n hn
  · intro l hl; exact putAll_other hl

theorem stepV_loop {G : Geom} (hG : G.Valid) (hnr : 3 ≤ G.nr) (hnz : 3 ≤ G.nz) {num : ℕ → ℕ}
    {F : Fields} {m : Mem PLoc} (hF : PRep G F m) {s : ℕ} {ps ps' : ℕ → Particle}
    (mode : PusherMode) (g : ℕ → Bool) (dt : ℝ) (hrep : SpeciesRep m s (num s) ps)
    (hin : ∀ n, n < num s → (ps n).alive = true → InRegion G (ps n).pos.c0 (ps n).pos.c2)
    (hp : ∀ n, n < num s → stepVSingle G F mode (g n) dt (ps n) = some (ps' n)) :
    ∃ m', LoopResult (PAlloc G num) (stepVLoop G mode g dt s (num s)) m m' s (num s) ps ps' :=
  loopResult_of_iter (localTo_stepV G mode g dt) fun n hn =>
    stepV_iter hn mode g dt hG hnr hnz hF (hrep n hn) (hin n hn) (hp n hn)

theorem move_loop {G : Geom} {num : ℕ → ℕ} {m : Mem PLoc} {s : ℕ} {ps ps' : ℕ → Particle}
    (bunch : Bool) (dt : ℝ) (hrep : SpeciesRep m s (num s) ps) (hfull : SpeciesFull m s (num s) ps)
    (hp : ∀ n, n < num s → moveHalfReflectSingle bunch G dt (ps n) = some (ps' n)) :
    ∃ m', LoopResult (PAlloc G num) (moveHalfReflectLoop bunch G dt s (num s)) m m' s (num s)
      ps ps' :=
  loopResult_of_iter (localTo_move bunch G dt) fun n hn =>
    move_iter hn bunch dt (hrep n hn) (hfull n hn) (hp n hn)

theorem backV_loop {G : Geom} {num : ℕ → ℕ} {m : Mem PLoc} {s : ℕ} {ps : ℕ → Particle}
    (hrep : SpeciesRep m s (num s) ps) (hfull : SpeciesFull m s (num s) ps) :
    ∃ m', LoopResult (PAlloc G num) (backVelocityLoop s (num s)) m m' s (num s)
      ps (fun n => backVelocitySingle (ps n)) :=
  loopResult_of_iter localTo_backV fun n hn => backV_iter hn (hrep n hn) (hfull n hn)

end Verif
