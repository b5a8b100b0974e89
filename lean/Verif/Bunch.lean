import Verif.Geometry
import Verif.Particle

/-!
# Injection and bookkeeping of the beam

Models `Bunch::bunch_inject` (src/bunch.cpp:87-124) and the control flow of
`LoadInitParam::init_beam` (src/loadInitParam.cpp:168-248).
-/

namespace Verif

/-- Parameters of one bunch, include/bunch.h:10-20 -/
structure BunchCfg where
  duration : ℝ
  hole_duration : ℝ
  velocity : ℝ
  number : ℕ

/-- `bunch_time_begin`, src/bunch.cpp:89 -/
noncomputable def BunchCfg.begin (B : BunchCfg) (bunch_number : ℕ) : ℝ :=
  B.duration * bunch_number + B.hole_duration * bunch_number

/-- `bunch_time_end`, src/bunch.cpp:90 -/
noncomputable def BunchCfg.finish (B : BunchCfg) (bunch_number : ℕ) : ℝ :=
  B.begin bunch_number + B.duration

/-- `(int) x` truncates towards zero. -/
noncomputable def truncZ (x : ℝ) : ℤ := if 0 ≤ x then ⌊x⌋ else ⌈x⌉

/-- What an iteration writes to a particle, src/bunch.cpp:113-115 -/
noncomputable def injectOne (G : Geom) (B : BunchCfg) (dt rand_z : ℝ) (p : Particle) : Particle :=
  { p with
    pos := { p.pos with c2 := B.velocity * dt * rand_z + G.dz / 2 }
    vel := { p.vel with c2 := B.velocity }
    alive := true }

/-- One iteration of the injection loop, src/bunch.cpp:103-121: `i + start_number` is unsigned, a
negative `start_number` (impossible in the window) wraps to a number not below `number`. -/
noncomputable def injectIter (G : Geom) (B : BunchCfg) (dt : ℝ) (rand : ℕ → ℝ) (start : ℤ)
    (ps : ℕ → Particle) (i : ℕ) : ℕ → Particle :=
  if 0 ≤ (i : ℤ) + start ∧ (i : ℤ) + start < B.number then
    Function.update ps ((i : ℤ) + start).toNat (injectOne G B dt (rand i) (ps ((i : ℤ) + start).toNat))
  else ps

/-- `bunch_inject`, src/bunch.cpp:87-124.  The iterations of the parallel loop are done in any order;
each is taken as atomic, which loses nothing because two iterations never touch the same particle.
The draws are a parameter.  `none` is the integer division by zero of line 94. -/
inductive Inject (G : Geom) (B : BunchCfg) (bunch_number : ℕ) (t dt : ℝ) :
    (ℕ → Particle) → Option (ℕ → Particle) → Prop
  | divZero (ps) (h : ⌈B.duration / dt⌉ = 0) : Inject G B bunch_number t dt ps none
  | skip (ps) (h : ⌈B.duration / dt⌉ ≠ 0)
      (hw : ¬ (t ≥ B.begin bunch_number ∧ t < B.finish bunch_number)) :
      Inject G B bunch_number t dt ps (some ps)
  | run (ps) (rand : ℕ → ℝ) (order : List ℕ) (h : ⌈B.duration / dt⌉ ≠ 0)
      (hw : t ≥ B.begin bunch_number ∧ t < B.finish bunch_number)
      (hrand : ∀ i, 0 ≤ rand i ∧ rand i < 1)
      (horder : List.Perm order (List.range (B.number / ⌈B.duration / dt⌉.toNat))) :
      Inject G B bunch_number t dt ps (some (order.foldl
        (injectIter G B dt rand (truncZ ((t - B.begin bunch_number) / dt
          * (B.number / ⌈B.duration / dt⌉.toNat : ℕ)))) ps))

/-! ## `init_beam` -/

/-- A bunch in memory -/
structure BunchObj where
  bunch_number : ℕ
  ps : ℕ → Particle

/-- `current_bunch_number` and `c_bunches` of `LoadInitParam` -/
structure BeamState where
  current : ℕ
  bunches : List BunchObj

/-- Beam parameters: `params->beam_*`, with `duration` and `hole_duration` as computed in
src/loadInitParam.cpp:173-174 -/
structure BeamCfg extends BunchCfg where
  number_bunches : ℕ

/-- `estimated_bunch_erase_number`, src/loadInitParam.cpp:184-188 -/
noncomputable def eraseNumber (G : Geom) (C : BeamCfg) (t : ℝ) : ℝ :=
  (t - G.z_size / C.velocity - C.duration) / (C.duration + C.hole_duration)

/-- The scan of one old bunch for live particles, src/loadInitParam.cpp:197-203; the loop variable is
not initialised, so the scan begins at an arbitrary index `garbage`. -/
def scanDead (C : BeamCfg) (garbage : ℕ) (b : BunchObj) : Prop :=
  ∀ i, garbage ≤ i → i < C.number → (b.ps i).alive = false

/-- The clean-up of gone bunches, src/loadInitParam.cpp:190-216. When a bunch is removed,
`part_list.erase(k)` invalidates the iterator `k`, which the `for` then increments (and the same for
`c_bunches.erase(i)`): undefined behaviour, the outcome `none`.  Every bunch is in `part_list`. -/
inductive Cleanup (G : Geom) (C : BeamCfg) (t : ℝ) : List BunchObj → Option Unit → Prop
  | nil : Cleanup G C t [] (some ())
  | young (b bs r) (h : ¬ ((b.bunch_number : ℝ) < eraseNumber G C t)) (hr : Cleanup G C t bs r) :
      Cleanup G C t (b :: bs) r
  | alive (b bs r garbage) (h : (b.bunch_number : ℝ) < eraseNumber G C t)
      (hs : ¬ scanDead C garbage b) (hr : Cleanup G C t bs r) : Cleanup G C t (b :: bs) r
  | erase (b bs garbage) (h : (b.bunch_number : ℝ) < eraseNumber G C t)
      (hs : scanDead C garbage b) : Cleanup G C t (b :: bs) none

/-- The clean-up runs only for more than one bunch, src/loadInitParam.cpp:191. -/
def CleanupAll (G : Geom) (C : BeamCfg) (t : ℝ) (s : BeamState) (r : Option Unit) : Prop :=
  (s.bunches.length > 1 ∧ Cleanup G C t s.bunches r) ∨ (¬ s.bunches.length > 1 ∧ r = some ())

/-- Creation of the next bunch, src/loadInitParam.cpp:217-241 (its particles are dead). -/
noncomputable def create (C : BeamCfg) (t : ℝ) (fresh : ℕ → Particle) (s : BeamState) : BeamState :=
  open Classical in
  if t ≥ s.current * (C.duration + C.hole_duration) ∧ s.current < C.number_bunches then
    ⟨s.current + 1, s.bunches ++ [⟨s.current, fresh⟩]⟩
  else s

/-- Injection into all bunches, src/loadInitParam.cpp:244-245 -/
inductive InjectAll (G : Geom) (B : BunchCfg) (t dt : ℝ) : List BunchObj → Option (List BunchObj) → Prop
  | nil : InjectAll G B t dt [] (some [])
  | fail (b bs) (h : Inject G B b.bunch_number t dt b.ps none) : InjectAll G B t dt (b :: bs) none
  | failTail (b bs ps) (h : Inject G B b.bunch_number t dt b.ps (some ps))
      (ht : InjectAll G B t dt bs none) : InjectAll G B t dt (b :: bs) none
  | cons (b bs ps bs') (h : Inject G B b.bunch_number t dt b.ps (some ps))
      (ht : InjectAll G B t dt bs (some bs')) :
      InjectAll G B t dt (b :: bs) (some (⟨b.bunch_number, ps⟩ :: bs'))

/-- `init_beam`, src/loadInitParam.cpp:168-248 -/
inductive InitBeam (G : Geom) (C : BeamCfg) (t dt : ℝ) (s : BeamState) : Option BeamState → Prop
  | cleanupFail (h : CleanupAll G C t s none) : InitBeam G C t dt s none
  | injectFail (fresh) (hf : ∀ i, (fresh i).alive = false) (h : CleanupAll G C t s (some ()))
      (hi : InjectAll G C.toBunchCfg t dt (create C t fresh s).bunches none) : InitBeam G C t dt s none
  | ok (fresh bs) (hf : ∀ i, (fresh i).alive = false) (h : CleanupAll G C t s (some ()))
      (hi : InjectAll G C.toBunchCfg t dt (create C t fresh s).bunches (some bs)) :
      InitBeam G C t dt s (some ⟨(create C t fresh s).current, bs⟩)

/-- The beam over the run: `init_beam` at the beginning of each step, src/loadInitParam.cpp:481
(call in the time loop), then the rest of the step may change the particles in any way. -/
inductive BeamRun (G : Geom) (C : BeamCfg) (t0 dt : ℝ) : ℕ → BeamState → Prop
  | start : BeamRun G C t0 dt 0 ⟨0, []⟩
  | step (j s s' s'') (h : BeamRun G C t0 dt j s) (hi : InitBeam G C (t0 + j * dt) dt s (some s'))
      (hc : s''.current = s'.current)
      (hb : s''.bunches.map BunchObj.bunch_number = s'.bunches.map BunchObj.bunch_number) :
      BeamRun G C t0 dt (j + 1) s''

end Verif
