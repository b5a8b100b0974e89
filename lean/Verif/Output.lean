import Verif.Reader
import Verif.Diag

/-!
# All probes of a run and the files they write

Models the construction of the probes (src/loadInitParam.cpp:64-83, src/probePlain.cpp:10-60) and
`LoadInitParam::dump_data` (src/loadInitParam.cpp:315-412) for a list of probes that share one file
system, with the sizes of the character buffers.
-/

namespace Verif

/-- `type` of a probe, src/parameters.cpp:124-165 -/
inductive OKind
  | frame | col | row | dot | mpframe
  deriving DecidableEq

/-- A configured probe, include/parameters.h:20-29; `specie` is `none` when the attribute is missing
(src/loadInitParam.cpp:70-74). -/
structure ProbeDecl where
  kind : OKind
  component : List Char
  specie : List Char
  start_r : ℤ
  start_z : ℤ
  end_r : ℤ
  end_z : ℤ
  schedule : ℤ

/-- the types that `ProbePlain::write` knows, src/probePlain.cpp:154-171 -/
def OKind.plain : OKind → Option ProbeKind
  | .frame => some .frame
  | .col => some .col
  | .row => some .row
  | .dot => some .dot
  | .mpframe => none

/-- The probe as in Probe.lean -/
def ProbeDecl.cfg (p : ProbeDecl) (k : ProbeKind) : ProbeCfg :=
  ⟨k, p.start_r, p.start_z, p.end_r, p.end_z, p.schedule⟩

/-- `%d` -/
def fmtInt (n : ℤ) : List Char := if n < 0 then '-' :: dec n.natAbs else dec n.natAbs

/-- the text `none`, src/loadInitParam.cpp:74 -/
def noneText : List Char := ['n', 'o', 'n', 'e']

/-- `result_component`, src/probePlain.cpp:33-38 -/
def ProbeDecl.resultComponent (p : ProbeDecl) : List Char :=
  if p.specie = noneText then p.component else p.component ++ '/' :: p.specie

/-- The last part of the path, src/probePlain.cpp:40-60 -/
def ProbeDecl.leaf (p : ProbeDecl) : List Char :=
  match p.kind with
  | .frame => ['f', 'r', 'a', 'm', 'e', '_'] ++ fmtInt p.start_r ++ [':'] ++ fmtInt p.start_z ++ ['_']
      ++ fmtInt p.end_r ++ [':'] ++ fmtInt p.end_z
  | .col => ['c', 'o', 'l', '_'] ++ fmtInt p.start_z
  | .row => ['r', 'o', 'w', '_'] ++ fmtInt p.start_r
  | .dot => ['d', 'o', 't', '_'] ++ fmtInt p.start_r ++ ['_'] ++ fmtInt p.start_z
  | .mpframe => ['m', 'p', 'f', 'r', 'a', 'm', 'e', '_'] ++ fmtInt p.start_r ++ [':'] ++ fmtInt p.start_z ++ ['_']
      ++ fmtInt p.end_r ++ [':'] ++ fmtInt p.end_z

/-- `path_result`, src/probePlain.cpp:40-60, in the directory `root` -/
def ProbeDecl.path (root : List Char) (p : ProbeDecl) : List Char :=
  root ++ '/' :: (p.resultComponent ++ '/' :: p.leaf)

/-- `dump_data_root`, src/loadInitParam.cpp:67-68 -/
def dataRoot (result_path data_root : List Char) : List Char := result_path ++ '/' :: data_root

/-- A text and its final zero fit in a buffer of `n` characters. -/
def Fits (s : List Char) (n : ℕ) : Prop := s.length < n

instance (s : List Char) (n : ℕ) : Decidable (Fits s n) := by unfold Fits; infer_instance

/-- Construction of a probe, src/loadInitParam.cpp:67-83, src/probePlain.cpp:15-60; `none` if a buffer
overflows: `dump_data_root` 100, `path` 256, `component` 10, `specie` 100, `result_component` 100,
`path_result` 100 (include/probe.h:18-32).  The result is the root directory. -/
def newProbe (result_path data_root : List Char) (p : ProbeDecl) : Option (List Char) :=
  let root := dataRoot result_path data_root
  if Fits root 100 ∧ Fits root 256 ∧ Fits p.component 10 ∧ Fits p.specie 100 ∧ Fits p.resultComponent 100
    ∧ Fits (p.path root) 100 then some root else none

/-- Contents of the files: the numbers written, by path -/
abbrev OutFS := List Char → Option (List ℝ)

/-- writing with `ios::app` -/
def OutFS.append (fs : OutFS) (path : List Char) (l : List ℝ) : OutFS :=
  Function.update fs path (some ((fs path).getD [] ++ l))

/-- `get_data_path`, src/probePlain.cpp:69-79; the buffer has 100 characters. -/
def dataPath (dir name : List Char) : Option (List Char) :=
  let path := dir ++ '/' :: (name ++ ['.', 'd', 'a', 't'])
  if Fits path 100 then some path else none

/-- `ProbePlain::write`, src/probePlain.cpp:154-171 with 81-152: nothing for a macroparticle probe. -/
noncomputable def writeArr (nr nz : ℕ) (root : List Char) (p : ProbeDecl) (name : List Char) (g : Grid) (fs : OutFS) :
    Option OutFS :=
  match p.kind.plain with
  | none => some fs
  | some k => (dataPath (p.path root) name).bind fun path =>
      (readCells nr nz g (p.cfg k).cells).map fun l => fs.append path (l.map fmt6)

/-- The test of `mpwrite`, src/probePlain.cpp:212-215: the cell numbers are unsigned and so the comparison
with the bounds is unsigned. -/
def mpSelected (G : Geom) (p : ProbeDecl) (x : Particle) : Prop :=
  u32 p.start_r ≤ u32 (CELL_NUMBER x.pos.c0 G.dr) ∧ u32 (CELL_NUMBER x.pos.c0 G.dr) ≤ u32 p.end_r ∧
  u32 p.start_z ≤ u32 (CELL_NUMBER x.pos.c2 G.dz) ∧ u32 (CELL_NUMBER x.pos.c2 G.dz) ≤ u32 p.end_z

/-- The five files of `mpwrite`: suffix of the name and the number written for a particle,
src/probePlain.cpp:182-187, 217-221 -/
def mpFiles : List (List Char × (Particle → ℝ)) :=
  [(['_', 'v', 'e', 'l', '_', 'r'], fun x => x.vel.c0), (['_', 'v', 'e', 'l', '_', 'p', 'h', 'i'], fun x => x.vel.c1),
   (['_', 'v', 'e', 'l', '_', 'z'], fun x => x.vel.c2), (['_', 'p', 'o', 's', '_', 'r'], fun x => x.pos.c0),
   (['_', 'p', 'o', 's', '_', 'z'], fun x => x.pos.c2)]

/-- `ProbePlain::mpwrite`, src/probePlain.cpp:173-224: all particles of the array, alive or not. -/
noncomputable def mpWrite (G : Geom) (root : List Char) (p : ProbeDecl) (name : List Char) (ps : List Particle) (fs : OutFS) :
    Option OutFS :=
  open Classical in
  mpFiles.foldlM (fun fs f => (dataPath (p.path root) (name ++ f.1)).map fun path =>
    fs.append path ((ps.filter fun x => mpSelected G p x).map fun x => fmt6 (f.2 x))) fs

/-- What a step offers to the probes.  `beam` is what one pass of `charge_weighting` over the bunches adds;
`temps` and `dens` are the arrays computed for each species (their computation: Diag.lean), `parts` the
particles of each species, in the order of the list of species. -/
structure Snap where
  arr : List Char → Option Grid
  beam : Grid
  temps : List (List Char × Grid)
  dens : List (List Char × Grid)
  parts : List (List Char × List Particle)

/-- The nine arrays tested first, src/loadInitParam.cpp:338-357 -/
def nineArrays (er ephi ez hr hphi hz jr jphi jz : Grid) (c : List Char) : Option Grid :=
  if c = ['E', '_', 'r'] then some er
  else if c = ['E', '_', 'p', 'h', 'i'] then some ephi
  else if c = ['E', '_', 'z'] then some ez
  else if c = ['H', '_', 'r'] then some hr
  else if c = ['H', '_', 'p', 'h', 'i'] then some hphi
  else if c = ['H', '_', 'z'] then some hz
  else if c = ['J', '_', 'r'] then some jr
  else if c = ['J', '_', 'p', 'h', 'i'] then some jphi
  else if c = ['J', '_', 'z'] then some jz
  else none

/-- The write of one probe that fires, src/loadInitParam.cpp:335-408: `n` is its `step_number`, `rho` the
beam density array, to which a probe of the beam density adds. -/
noncomputable def dumpWrite (G : Geom) (fpf : ℕ) (root : List Char) (S : Snap) (p : ProbeDecl) (n : ℕ) (fs : OutFS)
    (rho : Grid) : Option (OutFS × Grid) :=
  let name := dec (n / fpf)
  match S.arr p.component with
  | some g => (writeArr G.nr G.nz root p name g fs).map fun fs => (fs, rho)
  | none =>
    if p.component = ['r', 'h', 'o', '_', 'b', 'e', 'a', 'm'] then
      (writeArr G.nr G.nz root p name (fun i k => rho i k + S.beam i k) fs).map fun fs =>
        (fs, fun i k => rho i k + S.beam i k)
    else if p.component = ['T'] then
      (S.temps.foldlM (fun fs s => if s.1 = p.specie then writeArr G.nr G.nz root p name s.2 fs else some fs) fs).map
        fun fs => (fs, rho)
    else if p.component = ['d', 'e', 'n', 's', 'i', 't', 'y'] then
      (S.dens.foldlM (fun fs s => if s.1 = p.specie then writeArr G.nr G.nz root p name s.2 fs else some fs) fs).map
        fun fs => (fs, rho)
    else if p.kind = .mpframe then
      (S.parts.foldlM (fun fs s => if s.1 = p.component then mpWrite G root p (dec n) s.2 fs else some fs) fs).map
        fun fs => (fs, rho)
    else some (fs, rho)

/-- One probe in `dump_data`, src/loadInitParam.cpp:322-411 -/
noncomputable def dumpOne (G : Geom) (fpf : ℕ) (root : List Char) (t dt : ℝ) (S : Snap) (p : ProbeDecl) (n : ℕ)
    (fs : OutFS) (rho : Grid) : Option (ℕ × OutFS × Grid) :=
  if p.schedule = 0 then none
  else if (truncZ (t / dt)).tmod p.schedule = 0 then
    if fpf = 0 then none
    else (dumpWrite G fpf root S p n fs rho).map fun x => (n + 1, x)
  else some (n, fs, rho)

/-- `dump_data`, src/loadInitParam.cpp:315-412: the probes with their `step_number` -/
noncomputable def dumpData (G : Geom) (fpf : ℕ) (root : List Char) (t dt : ℝ) (S : Snap) :
    List (ProbeDecl × ℕ) → OutFS → Grid → Option (List (ProbeDecl × ℕ) × OutFS)
  | [], fs, _ => some ([], fs)
  | (p, n) :: ps, fs, rho => (dumpOne G fpf root t dt S p n fs rho).bind fun x =>
      (dumpData G fpf root t dt S ps x.2.1 x.2.2).map fun y => ((p, x.1) :: y.1, y.2)

/-- `N` steps of the run from time `t0`, step `j` offering `S j`; `c_rho_bunch` has been reset and filled
once before `dump_data`, src/loadInitParam.cpp:493, 580-583. -/
noncomputable def outputRun (G : Geom) (fpf : ℕ) (root : List Char) (t0 dt : ℝ) (S : ℕ → Snap)
    (ps : List ProbeDecl) (fs0 : OutFS) : ℕ → Option (List (ProbeDecl × ℕ) × OutFS)
  | 0 => some (ps.map fun p => (p, 0), fs0)
  | N + 1 => (outputRun G fpf root t0 dt S ps fs0 N).bind fun x =>
      dumpData G fpf root (t0 + N * dt) dt (S N) x.1 x.2 (S N).beam

end Verif
