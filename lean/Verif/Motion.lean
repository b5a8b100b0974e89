import Verif.Pusher
import Verif.Gather

/-!
# Particle motion

Models the particle loops of the main cycle other than deposition: `Particles::step_v`,
`move_half_reflect`, `back_velocity_to_rz` (src/particles.cpp:990-1023, 1256-1365) and
`Bunch::reflection_single` (src/bunch.cpp:126-153), first as functions of one particle, then as
parallel loops over the particle arrays.
-/

namespace Verif

/-! ## One particle -/

/-- `dump_position_to_old_single`, src/particles.cpp:1256-1260 -/
def dumpOld (p : Particle) : Particle :=
  { p with posOld := ⟨p.pos.c0, p.posOld.c1, p.pos.c2⟩ }

/-- `half_step_pos_single`, src/particles.cpp:1270-1284; reals are always valid numbers -/
noncomputable def halfStep (dt : ℝ) (p : Particle) : Particle :=
  let half_dt := dt / 2
  { p with pos := ⟨p.pos.c0 + p.vel.c0 * half_dt, p.pos.c1 + p.vel.c1 * half_dt,
      p.pos.c2 + p.vel.c2 * half_dt⟩ }

/-- `back_position_to_rz_single`, src/particles.cpp:1286-1294. On the axis the sine is `0/0`. -/
noncomputable def backPosition (p : Particle) : Option Particle :=
  let r := Real.sqrt (p.pos.c0 * p.pos.c0 + p.pos.c1 * p.pos.c1)
  if r = 0 then none
  else some { p with sinTheta := p.pos.c1 / r, pos := ⟨r, 0, p.pos.c2⟩ }

/-- `back_velocity_to_rz_single`, src/particles.cpp:1005-1015 -/
noncomputable def backVelocity (p : Particle) : Particle :=
  let cos_theta := Real.sqrt (1 - p.sinTheta * p.sinTheta)
  { p with cosTheta := cos_theta,
           vel := ⟨cos_theta * p.vel.c0 - p.sinTheta * p.vel.c1,
                   p.sinTheta * p.vel.c0 + cos_theta * p.vel.c1, p.vel.c2⟩ }

/-- the wall test both reflections repeat for the near walls, src/particles.cpp:1342-1352,
src/bunch.cpp:141-152 -/
noncomputable def reflectLow (G : Geom) (p : Particle) : Particle :=
  let p := if p.pos.c0 < G.dr / 2 then
      { p with pos := ⟨G.dr - p.pos.c0, p.pos.c1, p.pos.c2⟩,
               vel := ⟨-p.vel.c0, p.vel.c1, p.vel.c2⟩ } else p
  if p.pos.c2 < G.dz / 2 then
      { p with pos := ⟨p.pos.c0, p.pos.c1, G.dz - p.pos.c2⟩,
               vel := ⟨p.vel.c0, p.vel.c1, -p.vel.c2⟩ } else p

/-- `Particles::reflection_single`, src/particles.cpp:1318-1353 -/
noncomputable def reflection (G : Geom) (p : Particle) : Particle :=
  let radius_wall := G.r_size - G.dr / 2
  let longitude_wall := G.z_size - G.dz / 2
  let p := if p.pos.c0 > radius_wall then
      { p with pos := ⟨radius_wall * 2 - p.pos.c0, p.pos.c1, p.pos.c2⟩,
               vel := ⟨-p.vel.c0, p.vel.c1, p.vel.c2⟩ } else p
  let p := if p.pos.c2 > longitude_wall then
      { p with pos := ⟨p.pos.c0, p.pos.c1, longitude_wall * 2 - p.pos.c2⟩,
               vel := ⟨p.vel.c0, p.vel.c1, -p.vel.c2⟩ } else p
  reflectLow G p

/-- `Bunch::reflection_single`, src/bunch.cpp:126-153 -/
noncomputable def bunchReflection (G : Geom) (p : Particle) : Particle :=
  let p := if p.pos.c0 > G.r_size - G.dr / 2 then { p with alive := false } else p
  let p := if p.pos.c2 > G.z_size - G.dz / 2 then { p with alive := false } else p
  reflectLow G p

/-- the virtual `reflection_single`: `bunch` tells the class of the object -/
noncomputable def reflectionOf (bunch : Bool) (G : Geom) (p : Particle) : Particle :=
  if bunch then bunchReflection G p else reflection G p

/-- body of the loop of `step_v`, src/particles.cpp:1296-1316, with the fields `F` interpolated to
the particle -/
noncomputable def stepVSingle (G : Geom) (F : Fields) (mode : PusherMode) (garbage : Bool) (dt : ℝ)
    (p : Particle) : Option Particle :=
  if p.alive then
    (push mode garbage dt p.charge p.mass (valE G F p.pos.c0 p.pos.c2) (valH G F p.pos.c0 p.pos.c2)
      p.vel).bind fun v => backPosition (halfStep dt (dumpOld { p with vel := v }))
  else some p

/-- body of the loop of `move_half_reflect`, src/particles.cpp:1355-1365 -/
noncomputable def moveHalfReflectSingle (bunch : Bool) (G : Geom) (dt : ℝ) (p : Particle) :
    Option Particle :=
  if p.alive then backPosition (reflectionOf bunch G (halfStep dt p)) else some p

/-- body of the loop of `back_velocity_to_rz`, src/particles.cpp:1017-1023 -/
noncomputable def backVelocitySingle (p : Particle) : Particle :=
  if p.alive then backVelocity p else p

/-! ## The arrays of one particle as local state -/

/-- The array elements of one particle; `none` is uninitialised. -/
@[ext] structure PState where
  pos0 : Option ℝ
  pos1 : Option ℝ
  pos2 : Option ℝ
  old0 : Option ℝ
  old2 : Option ℝ
  vel0 : Option ℝ
  vel1 : Option ℝ
  vel2 : Option ℝ
  charge : Option ℝ
  mass : Option ℝ
  sin : Option ℝ
  cos : Option ℝ
  alive : Option ℝ

/-- read -/
def PState.get (st : PState) : PComp → Option ℝ
  | .pos0 => st.pos0 | .pos1 => st.pos1 | .pos2 => st.pos2 | .old0 => st.old0 | .old2 => st.old2
  | .vel0 => st.vel0 | .vel1 => st.vel1 | .vel2 => st.vel2 | .charge => st.charge
  | .mass => st.mass | .sin => st.sin | .cos => st.cos | .alive => st.alive

/-- write -/
def PState.set (st : PState) (c : PComp) (v : ℝ) : PState :=
  match c with
  | .pos0 => { st with pos0 := some v } | .pos1 => { st with pos1 := some v }
  | .pos2 => { st with pos2 := some v } | .old0 => { st with old0 := some v }
  | .old2 => { st with old2 := some v } | .vel0 => { st with vel0 := some v }
  | .vel1 => { st with vel1 := some v } | .vel2 => { st with vel2 := some v }
  | .charge => { st with charge := some v } | .mass => { st with mass := some v }
  | .sin => { st with sin := some v } | .cos => { st with cos := some v }
  | .alive => { st with alive := some v }

theorem PState.get_set (st : PState) (c d : PComp) (v : ℝ) :
    (st.set c v).get d = if d = c then some v else st.get d := by
  cases c <;> cases d <;> simp [PState.set, PState.get]

/-- memory with the arrays of particle `n` of species `s` replaced -/
def putPart (m : Mem PLoc) (s n : ℕ) (st : PState) : Mem PLoc
  | .part s' n' c => if s' = s ∧ n' = n then st.get c else m (.part s' n' c)
  | l => m l

/-- the arrays of particle `n` of species `s` -/
def partAt (m : Mem PLoc) (s n : ℕ) : PState where
  pos0 := m (.part s n .pos0)
  pos1 := m (.part s n .pos1)
  pos2 := m (.part s n .pos2)
  old0 := m (.part s n .old0)
  old2 := m (.part s n .old2)
  vel0 := m (.part s n .vel0)
  vel1 := m (.part s n .vel1)
  vel2 := m (.part s n .vel2)
  charge := m (.part s n .charge)
  mass := m (.part s n .mass)
  sin := m (.part s n .sin)
  cos := m (.part s n .cos)
  alive := m (.part s n .alive)

theorem partAt_get (m : Mem PLoc) (s n : ℕ) (c : PComp) : (partAt m s n).get c = m (.part s n c) := by
  cases c <;> rfl

theorem putPart_partAt (m : Mem PLoc) (s n : ℕ) : putPart m s n (partAt m s n) = m := by
  funext l
  cases l with
  | part s' n' c =>
    simp only [putPart]
    split_ifs with h
    · obtain ⟨rfl, rfl⟩ := h; exact partAt_get m _ _ c
    · rfl
  | fld l => rfl
  | exit => rfl

theorem putPart_update (m : Mem PLoc) (s n : ℕ) (st : PState) (c : PComp) (v : ℝ) :
    Function.update (putPart m s n st) (.part s n c) (some v) = putPart m s n (st.set c v) := by
  funext l
  by_cases h : l = .part s n c
  · subst h
    rw [Function.update_self]
    simp [putPart, PState.get_set]
  · rw [Function.update_of_ne h]
    cases l with
    | part s' n' c' =>
      simp only [putPart, PState.get_set]
      split_ifs with h1 h2
      · obtain ⟨rfl, rfl⟩ := h1; subst h2; exact absurd rfl h
      · rfl
      · rfl
    | fld l => rfl
    | exit => rfl

/-! ## The loops -/

open Prog (rd wr)

/-- `boris_pusher_single` / `vay_pusher_single` -/
noncomputable def pushProg (G : Geom) (mode : PusherMode) (garbage : Bool) (dt : ℝ) (s n : ℕ) :
    Prog PLoc Unit := do
  let r ← rd (.part s n .pos0)
  let z ← rd (.part s n .pos2)
  let e ← getE G r z
  let h ← getH G r z
  let q ← rd (.part s n .charge)
  let m ← rd (.part s n .mass)
  let v0 ← rd (.part s n .vel0)
  let v1 ← rd (.part s n .vel1)
  let v2 ← rd (.part s n .vel2)
  match push mode garbage dt q m e h ⟨v0, v1, v2⟩ with
  | none => abort ()
  | some v => do
    wr (.part s n .vel0) v.c0
    wr (.part s n .vel1) v.c1
    wr (.part s n .vel2) v.c2

/-- `dump_position_to_old_single` -/
def dumpOldProg (s n : ℕ) : Prog PLoc Unit := do
  let r ← rd (.part s n .pos0)
  wr (.part s n .old0) r
  let z ← rd (.part s n .pos2)
  wr (.part s n .old2) z

/-- `half_step_pos_single` -/
noncomputable def halfStepProg (dt : ℝ) (s n : ℕ) : Prog PLoc Unit := do
  let x ← rd (.part s n .pos0)
  let u ← rd (.part s n .vel0)
  wr (.part s n .pos0) (x + u * (dt / 2))
  let y ← rd (.part s n .pos1)
  let v ← rd (.part s n .vel1)
  wr (.part s n .pos1) (y + v * (dt / 2))
  let z ← rd (.part s n .pos2)
  let w ← rd (.part s n .vel2)
  wr (.part s n .pos2) (z + w * (dt / 2))

/-- `back_position_to_rz_single` -/
noncomputable def backPositionProg (s n : ℕ) : Prog PLoc Unit := do
  let x ← rd (.part s n .pos0)
  let y ← rd (.part s n .pos1)
  if Real.sqrt (x * x + y * y) = 0 then abort () else do
  wr (.part s n .sin) (y / Real.sqrt (x * x + y * y))
  wr (.part s n .pos0) (Real.sqrt (x * x + y * y))
  wr (.part s n .pos1) 0

/-- mirror coordinate `c` (velocity `d`) at `wall` if `test` -/
noncomputable def mirrorProg (s n : ℕ) (c d : PComp) (test : ℝ → Prop) [DecidablePred test]
    (twice : ℝ) : Prog PLoc Unit := do
  let x ← rd (.part s n c)
  if test x then do
    wr (.part s n c) (twice - x)
    let v ← rd (.part s n d)
    wr (.part s n d) (-v)
  else return ()

/-- mark dead if `test` -/
noncomputable def killProg (s n : ℕ) (c : PComp) (test : ℝ → Prop) [DecidablePred test] :
    Prog PLoc Unit := do
  let x ← rd (.part s n c)
  if test x then wr (.part s n .alive) 0 else return ()

/-- what the two classes do at a far wall -/
noncomputable def farProg (bunch : Bool) (s n : ℕ) (c d : PComp) (wall : ℝ) : Prog PLoc Unit :=
  if bunch then killProg s n c (fun x => x > wall)
  else mirrorProg s n c d (fun x => x > wall) (wall * 2)

/-- the two `reflection_single` -/
noncomputable def reflectionProg (bunch : Bool) (G : Geom) (s n : ℕ) : Prog PLoc Unit := do
  farProg bunch s n .pos0 .vel0 (G.r_size - G.dr / 2)
  farProg bunch s n .pos2 .vel2 (G.z_size - G.dz / 2)
  mirrorProg s n .pos0 .vel0 (fun x => x < G.dr / 2) G.dr
  mirrorProg s n .pos2 .vel2 (fun x => x < G.dz / 2) G.dz

/-- `back_velocity_to_rz_single` -/
noncomputable def backVelocityProg (s n : ℕ) : Prog PLoc Unit := do
  let sn ← rd (.part s n .sin)
  wr (.part s n .cos) (Real.sqrt (1 - sn * sn))
  let c ← rd (.part s n .cos)
  let v0 ← rd (.part s n .vel0)
  let v1 ← rd (.part s n .vel1)
  wr (.part s n .vel0) (c * v0 - sn * v1)
  wr (.part s n .vel1) (sn * v0 + c * v1)

/-- `if (is_alive[i])` -/
noncomputable def ifAlive (s n : ℕ) (body : Prog PLoc Unit) : Prog PLoc Unit := do
  let a ← rd (.part s n .alive)
  if a = 0 then return () else body

/-- `for (i = 0; i < number; i++) if (is_alive[i]) body(i)` under `omp parallel for` -/
noncomputable def partLoop (s num : ℕ) (body : ℕ → Prog PLoc Unit) : ℕ → Task PLoc := fun n =>
  if n < num then ifAlive s n (body n) else .ret ()

/-- `step_v`; `garbage` are the values of the uninitialised flags -/
noncomputable def stepVLoop (G : Geom) (mode : PusherMode) (garbage : ℕ → Bool) (dt : ℝ)
    (s num : ℕ) : ℕ → Task PLoc :=
  partLoop s num fun n => do
    pushProg G mode (garbage n) dt s n
    dumpOldProg s n
    halfStepProg dt s n
    backPositionProg s n

/-- `move_half_reflect` -/
noncomputable def moveHalfReflectLoop (bunch : Bool) (G : Geom) (dt : ℝ) (s num : ℕ) :
    ℕ → Task PLoc :=
  partLoop s num fun n => do
    halfStepProg dt s n
    reflectionProg bunch G s n
    backPositionProg s n

/-- `back_velocity_to_rz` -/
noncomputable def backVelocityLoop (s num : ℕ) : ℕ → Task PLoc :=
  partLoop s num fun n => backVelocityProg s n

/-! ## Locality -/

/-- The program loads only fields and the arrays of particle `n` of species `s`, and stores only to
the latter. -/
def LocalTo {α : Type} (s n : ℕ) : Prog PLoc α → Prop
  | .ret _ => True
  | .load l k => (l = .exit ∨ (∃ f, l = .fld f) ∨ ∃ c, l = .part s n c) ∧ ∀ v, LocalTo s n (k v)
  | .store l _ k => (∃ c, l = .part s n c) ∧ LocalTo s n k

theorem LocalTo.bind {α β : Type} {s n : ℕ} {p : Prog PLoc α} {f : α → Prog PLoc β}
    (hp : LocalTo s n p) (hf : ∀ a, LocalTo s n (f a)) : LocalTo s n (p >>= f) := by
  rw [Prog.bind_eq]
  induction p with
  | ret a => exact hf a
  | load l k ih => exact ⟨hp.1, fun v => ih v (hp.2 v)⟩
  | store l v k ih => exact ⟨hp.1, ih hp.2⟩

theorem LocalTo.mayLoad {α : Type} {s n : ℕ} {p : Prog PLoc α} (hp : LocalTo s n p) {l : PLoc}
    (h : p.MayLoad l) : l = .exit ∨ (∃ f, l = .fld f) ∨ ∃ c, l = .part s n c := by
  induction p with
  | ret a => cases h
  | load x k ih =>
    rcases h with rfl | ⟨v, h⟩
    · exact hp.1
    · exact ih v (hp.2 v) h
  | store x v k ih => exact ih hp.2 h

theorem LocalTo.mayStore {α : Type} {s n : ℕ} {p : Prog PLoc α} (hp : LocalTo s n p) {l : PLoc}
    (h : p.MayStore l) : ∃ c, l = .part s n c := by
  induction p with
  | ret a => cases h
  | load x k ih => obtain ⟨v, h⟩ := h; exact ih v (hp.2 v) h
  | store x v k ih =>
    rcases h with rfl | h
    · exact hp.1
    · exact ih hp.2 h

theorem localTo_pure {α : Type} {s n : ℕ} (a : α) : LocalTo s n (pure a : Prog PLoc α) := trivial
theorem localTo_rd {s n : ℕ} (c : PComp) : LocalTo s n (rd (PLoc.part s n c)) :=
  ⟨Or.inr (Or.inr ⟨c, rfl⟩), fun _ => trivial⟩
theorem localTo_rdf {s n : ℕ} (f : Loc) : LocalTo s n (rd (PLoc.fld f)) :=
  ⟨Or.inr (Or.inl ⟨f, rfl⟩), fun _ => trivial⟩
theorem localTo_wr {s n : ℕ} (c : PComp) (v : ℝ) : LocalTo s n (wr (PLoc.part s n c) v) :=
  ⟨⟨c, rfl⟩, trivial⟩
theorem localTo_abort {α : Type} {s n : ℕ} (a : α) : LocalTo s n (abort a) :=
  ⟨Or.inl rfl, fun _ => trivial⟩

/-- discharge locality goals -/
macro "loc_tac" : tactic => `(tactic| repeat' first
  | exact localTo_pure _ | exact localTo_rd _ | exact localTo_rdf _ | exact localTo_wr _ _
  | exact localTo_abort _ | apply LocalTo.bind | split | assumption | intro _)

theorem localTo_gather4 {s n : ℕ} (a : Arr) (i k : ℤ) (dz1 dz2 r1 r2 r3 v1 v2 : ℝ) :
    LocalTo s n (gather4 a i k dz1 dz2 r1 r2 r3 v1 v2) := by
  unfold gather4; loc_tac
theorem localTo_getE {s n : ℕ} (G : Geom) (r z : ℝ) : LocalTo s n (getE G r z) := by
  unfold getE gatherHalf gatherInt
  refine LocalTo.bind (localTo_gather4 ..) fun _ => LocalTo.bind (localTo_gather4 ..) fun _ =>
    LocalTo.bind (localTo_gather4 ..) fun _ => localTo_pure _
theorem localTo_getH {s n : ℕ} (G : Geom) (r z : ℝ) : LocalTo s n (getH G r z) := by
  unfold getH gatherHalf gatherInt
  refine LocalTo.bind (localTo_gather4 ..) fun _ => LocalTo.bind (localTo_gather4 ..) fun _ =>
    LocalTo.bind (localTo_gather4 ..) fun _ => localTo_pure _
theorem localTo_push {s n : ℕ} (G : Geom) (mode : PusherMode) (g : Bool) (dt : ℝ) :
    LocalTo s n (pushProg G mode g dt s n) := by
  unfold pushProg
  refine LocalTo.bind (localTo_rd _) fun r => LocalTo.bind (localTo_rd _) fun z =>
    LocalTo.bind (localTo_getE ..) fun e => LocalTo.bind (localTo_getH ..) fun h => ?_
  loc_tac
theorem localTo_dump {s n : ℕ} : LocalTo s n (dumpOldProg s n) := by unfold dumpOldProg; loc_tac
theorem localTo_half {s n : ℕ} (dt : ℝ) : LocalTo s n (halfStepProg dt s n) := by
  unfold halfStepProg; loc_tac
theorem localTo_backPos {s n : ℕ} : LocalTo s n (backPositionProg s n) := by
  unfold backPositionProg; loc_tac
theorem localTo_mirror {s n : ℕ} (c d : PComp) (test : ℝ → Prop) [DecidablePred test] (w : ℝ) :
    LocalTo s n (mirrorProg s n c d test w) := by unfold mirrorProg; loc_tac
theorem localTo_kill {s n : ℕ} (c : PComp) (test : ℝ → Prop) [DecidablePred test] :
    LocalTo s n (killProg s n c test) := by unfold killProg; loc_tac
theorem localTo_reflection {s n : ℕ} (bunch : Bool) (G : Geom) :
    LocalTo s n (reflectionProg bunch G s n) := by
  unfold reflectionProg farProg
  refine LocalTo.bind ?_ fun _ => LocalTo.bind ?_ fun _ => LocalTo.bind ?_ fun _ => ?_
  · split
    · exact localTo_kill ..
    · exact localTo_mirror ..
  · split
    · exact localTo_kill ..
    · exact localTo_mirror ..
  · exact localTo_mirror ..
  · exact localTo_mirror ..
theorem localTo_backVel {s n : ℕ} : LocalTo s n (backVelocityProg s n) := by
  unfold backVelocityProg; loc_tac

/-- every iteration of the three loops is local to its particle -/
theorem localTo_partLoop {s num : ℕ} {body : ℕ → Prog PLoc Unit} (h : ∀ n, LocalTo s n (body n))
    (n : ℕ) : LocalTo s n (partLoop s num body n) := by
  unfold partLoop
  split
  · unfold ifAlive
    refine LocalTo.bind (localTo_rd _) fun a => ?_
    split
    · exact localTo_pure _
    · exact h n
  · exact localTo_pure _

theorem localTo_stepV {s num : ℕ} (G : Geom) (mode : PusherMode) (g : ℕ → Bool) (dt : ℝ) (n : ℕ) :
    LocalTo s n (stepVLoop G mode g dt s num n) := by
  apply localTo_partLoop
  intro n
  exact LocalTo.bind (localTo_push ..) fun _ => LocalTo.bind localTo_dump fun _ =>
    LocalTo.bind (localTo_half _) fun _ => localTo_backPos
theorem localTo_move {s num : ℕ} (bunch : Bool) (G : Geom) (dt : ℝ) (n : ℕ) :
    LocalTo s n (moveHalfReflectLoop bunch G dt s num n) := by
  apply localTo_partLoop
  intro n
  exact LocalTo.bind (localTo_half _) fun _ => LocalTo.bind (localTo_reflection ..) fun _ =>
    localTo_backPos
theorem localTo_backV {s num : ℕ} (n : ℕ) : LocalTo s n (backVelocityLoop s num n) := by
  apply localTo_partLoop
  intro n
  exact localTo_backVel

/-- owner of a particle cell -/
def ownerOf : PLoc → ℕ
  | .part _ n _ => n
  | _ => 0

/-- Loops with local iterations are race free. -/
theorem raceFree_local {s : ℕ} {P : ℕ → Task PLoc} (h : ∀ n, LocalTo s n (P n)) : RaceFree P := by
  refine raceFree_of_owner ownerOf (fun l => ∃ n c, l = .part s n c) ?_ ?_
  · intro t l hl
    obtain ⟨c, rfl⟩ := (h t).mayStore hl
    exact ⟨⟨t, c, rfl⟩, rfl⟩
  · rintro t l hl ⟨n, c, rfl⟩
    rcases (h t).mayLoad hl with h | ⟨f, h⟩ | ⟨c', h⟩
    · cases h
    · cases h
    · cases h; rfl

/-- memory after a loop over species `s` that leaves `st n` in the arrays of particle `n` -/
def putAll (m : Mem PLoc) (s num : ℕ) (st : ℕ → PState) : Mem PLoc
  | .part s' n c => if s' = s ∧ n < num then (st n).get c else m (.part s' n c)
  | l => m l

/-- What a particle loop leaves. -/
theorem partLoop_spec (alloc : PLoc → Prop) [DecidablePred alloc] {s num : ℕ}
    {body : ℕ → Prog PLoc Unit} (hl : ∀ n, LocalTo s n (partLoop s num body n)) (m : Mem PLoc)
    (st : ℕ → PState)
    (hrun : ∀ n, n < num → solo alloc (partLoop s num body n) m = some (putPart m s n (st n))) :
    LoopSpec alloc (partLoop s num body) m (putAll m s num st) := by
  refine ⟨raceFree_local hl, ⟨List.range num, ?_⟩,
    fun n => if n < num then putPart m s n (st n) else m, ?_, ?_, ?_⟩
  · intro n hn
    rw [List.mem_range] at hn
    unfold partLoop
    rw [if_neg hn]
  · intro n
    by_cases h : n < num
    · simp only [h, if_true, hrun n h]
    · simp only [h, if_false]
      unfold partLoop
      rw [if_neg h]; rfl
  · intro n l hs
    obtain ⟨c, rfl⟩ := (hl n).mayStore hs
    by_cases h : n < num
    · simp [putAll, putPart, h]
    · unfold partLoop at hs
      rw [if_neg h] at hs
      cases hs
  · intro l hs
    cases l with
    | part s' n c =>
      simp only [putAll]
      split_ifs with h
      · obtain ⟨rfl, hn⟩ := h
        have h1 := solo_unchanged alloc (hrun n hn) _ (hs n)
        rw [← h1]; simp [putPart]
      · rfl
    | fld l => rfl
    | exit => rfl

end Verif
