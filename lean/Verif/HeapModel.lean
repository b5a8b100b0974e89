import Mathlib.Data.Multiset.AddSub
import Mathlib.Data.Multiset.Basic
import Mathlib.Data.Multiset.Replicate
import Mathlib.Algebra.BigOperators.Group.Multiset.Basic
import Mathlib.Data.Fintype.EquivFin
import Mathlib.Data.Finset.Basic
import Mathlib.Tactic.Abel
import Mathlib.Tactic.Linarith

/-!
# Dynamic memory (C104): model

`new`, `new[]`, `delete` and `delete[]` of the program, with the addresses the allocator gives left open.  What is stored in the
blocks is modelled elsewhere.
-/

namespace Verif

/-! ## The heap -/

/-- `new T` or `new T[n]`; a block of one kind must not be given back as one of the other. -/
inductive NewKind
  | one | many
  deriving DecidableEq

/-- a live block -/
@[ext] structure Block where
  addr : ℕ
  kind : NewKind
  bytes : ℕ
  deriving DecidableEq

/-- the live blocks -/
abbrev Heap := Multiset Block

/-- addresses in use -/
def Heap.used (H : Heap) : Multiset ℕ := H.map Block.addr

/-- no address is in use twice -/
def Heap.Ok (H : Heap) : Prop := H.used.Nodup

/-- memory in use -/
def Heap.bytes (H : Heap) : ℕ := (H.map Block.bytes).sum

/-- A piece of code as the allocator sees it. -/
inductive HP (α : Type) where
  | ret (x : α)
  | new (k : NewKind) (n : ℕ) (f : ℕ → HP α)
  | del (k : NewKind) (a : ℕ) (q : HP α)

namespace HP

def bind {α β : Type} : HP α → (α → HP β) → HP β
  | .ret x, g => g x
  | .new k n f, g => .new k n fun a => (f a).bind g
  | .del k a q, g => .del k a (q.bind g)

instance : Monad HP where
  pure := .ret
  bind := .bind

/-- `new char` etc. -/
def newOne (n : ℕ) : HP ℕ := .new .one n .ret
/-- `new double[]` etc., size in bytes -/
def newMany (n : ℕ) : HP ℕ := .new .many n .ret
/-- `delete p` -/
def delOne (a : ℕ) : HP Unit := .del .one a (.ret ())
/-- `delete[] p` -/
def delMany (a : ℕ) : HP Unit := .del .many a (.ret ())

end HP

/-- One action: the allocator gives any address that is not in use. -/
inductive HStep {α : Type} : HP α → Heap → HP α → Heap → Prop
  | new {k n f H a} (h : a ∉ H.used) : HStep (.new k n f) H (f a) (⟨a, k, n⟩ ::ₘ H)
  | del {k n a q H} (h : (⟨a, k, n⟩ : Block) ∈ H) : HStep (.del k a q) H q (H.erase ⟨a, k, n⟩)

/-- Undefined behaviour: what is given back is not in use, or was not allocated that way. -/
def HBad {α : Type} : HP α → Heap → Prop
  | .del k a _, H => ∀ n, (⟨a, k, n⟩ : Block) ∉ H
  | _, _ => False

/-- complete executions -/
inductive HRun {α : Type} : HP α → Heap → α → Heap → Prop
  | ret (x H) : HRun (.ret x) H x H
  | step {p H q H1 x H'} (s : HStep p H q H1) (r : HRun q H1 x H') : HRun p H x H'

/-- executions that end with undefined behaviour -/
inductive HFault {α : Type} : HP α → Heap → Prop
  | bad {p H} (h : HBad p H) : HFault p H
  | step {p H q H1} (s : HStep p H q H1) (r : HFault q H1) : HFault p H

/-- Threads: their actions in any order. -/
inductive ParStep {α : Type} : List (HP α) → Heap → List (HP α) → Heap → Prop
  | mk {l r p q H H'} (s : HStep p H q H') : ParStep (l ++ p :: r) H (l ++ q :: r) H'

/-- all threads come to their end, with their results -/
inductive ParRun {α : Type} : List (HP α) → Heap → List α → Heap → Prop
  | done (xs H) : ParRun (xs.map .ret) H xs H
  | step {ps H qs H1 xs H'} (s : ParStep ps H qs H1) (r : ParRun qs H1 xs H') : ParRun ps H xs H'

inductive ParFault {α : Type} : List (HP α) → Heap → Prop
  | bad {ps H p} (h : p ∈ ps) (hb : HBad p H) : ParFault ps H
  | step {ps H qs H1} (s : ParStep ps H qs H1) (r : ParFault qs H1) : ParFault ps H

/-! ## Arrays of rows -/

/-- `for (i = 0; i < n; i++) x[i] = new double[..]`.  Where the loop is an `omp for` the rows are allocated in another order,
which makes no difference as the addresses are arbitrary. -/
def newRows : ℕ → ℕ → HP (List ℕ)
  | 0, _ => pure []
  | n + 1, b => do
    let a ← HP.newMany b
    let l ← newRows n b
    return a :: l

/-- `for (i = 0; i < ..; i++) delete[] x[i]` -/
def delRows : List ℕ → HP Unit
  | [] => pure ()
  | a :: l => do
    HP.delMany a
    delRows l

/-- a two-dimensional array: `x = new double*[nr]; x[i] = new double[nz]` -/
structure Mat where
  top : ℕ
  rows : List ℕ

def newMat (nr b : ℕ) : HP Mat := do
  let t ← HP.newMany (8 * nr)
  let l ← newRows nr b
  return ⟨t, l⟩

/-- rows below `m` and the array of rows -/
def delMat (m : ℕ) (x : Mat) : HP Unit := do
  delRows (x.rows.take m)
  HP.delMany x.top

/-! ## Objects -/

/-- pointers of an object of class `Particles` -/
structure PartPtr where
  number : ℕ
  (mass charge vel pos old alive sinT cosT : ℕ)
  rows : List (ℕ × ℕ × ℕ)

/-- rows of a macroparticle, src/particles.cpp:48-54 -/
def newPartRows : ℕ → HP (List (ℕ × ℕ × ℕ))
  | 0 => pure []
  | n + 1 => do
    let v ← HP.newMany 24
    let p ← HP.newMany 24
    let o ← HP.newMany 24
    let l ← newPartRows n
    return (v, p, o) :: l

/-- `Particles::Particles`, src/particles.cpp:23-55 -/
def newPart (number : ℕ) : HP PartPtr := do
  let mass ← HP.newMany (8 * number)
  let charge ← HP.newMany (8 * number)
  let vel ← HP.newMany (8 * number)
  let pos ← HP.newMany (8 * number)
  let old ← HP.newMany (8 * number)
  let alive ← HP.newMany number
  let sinT ← HP.newMany (8 * number)
  let cosT ← HP.newMany (8 * number)
  let rows ← newPartRows number
  return ⟨number, mass, charge, vel, pos, old, alive, sinT, cosT, rows⟩

/-- src/particles.cpp:60-65 -/
def delPartRows : List (ℕ × ℕ × ℕ) → HP Unit
  | [] => pure ()
  | (v, p, o) :: l => do
    HP.delMany p
    HP.delMany o
    HP.delMany v
    delPartRows l

/-- `Particles::~Particles`, src/particles.cpp:58-76; the destructor of `Bunch` (src/bunch.cpp:82-84) adds nothing. -/
def delPart (x : PartPtr) : HP Unit := do
  delPartRows (x.rows.take x.number)
  HP.delMany x.pos
  HP.delMany x.old
  HP.delMany x.vel
  HP.delMany x.alive
  HP.delMany x.mass
  HP.delMany x.charge
  HP.delMany x.sinT
  HP.delMany x.cosT

/-- What the program or its user can create: species and bunches (with their size in bytes), charge densities and solvers. -/
inductive ObjSpec
  | particles (size number : ℕ)
  | rho (size nr nz : ℕ)
  | dirichlet (size nr nz : ℕ)

/-- created objects -/
inductive Obj
  | particles (self size : ℕ) (x : PartPtr)
  | mat (self size nr nz : ℕ) (x : Mat)

/-- `new Particles(..)`, `new Bunch(..)`; `new ChargeDensity(..)`, src/chargeDensity.cpp:8-23; `new PoissonDirichlet(..)`,
src/poissonDirichlet.cpp:6-13 -/
def ObjSpec.create : ObjSpec → HP Obj
  | .particles size number => do
    let self ← HP.newOne size
    let x ← newPart number
    return .particles self size x
  | .rho size nr nz => do
    let self ← HP.newOne size
    let x ← newMat nr (8 * nz)
    return .mat self size nr nz x
  | .dirichlet size nr nz => do
    let self ← HP.newOne size
    let x ← newMat nr (8 * nz)
    return .mat self size nr nz x

/-- `delete`: `~Particles`; `~ChargeDensity`, src/chargeDensity.cpp:25-30; `~PoissonDirichlet`, src/poissonDirichlet.cpp:15-21 -/
def Obj.destroy : Obj → HP Unit
  | .particles self _ x => do
    delPart x
    HP.delOne self
  | .mat self _ nr _ x => do
    delMat nr x
    HP.delOne self

/-- A history of creations and deletions, each object deleted at most once: heap and objects at its end. -/
inductive ObjRun (H0 : Heap) : Heap → List Obj → Prop
  | start : ObjRun H0 H0 []
  | create {H os H' o} (s : ObjSpec) (h : ObjRun H0 H os) (r : HRun s.create H o H') : ObjRun H0 H' (o :: os)
  | destroy {H l r H'} {o : Obj} (h : ObjRun H0 H (l ++ o :: r)) (d : HRun o.destroy H () H') : ObjRun H0 H' (l ++ r)

/-- pointers of a `Field` -/
structure FieldPtr where
  (r phi z : Mat)

/-- `Field::Field`, src/field.cpp:10-24.  The rows of the three arrays are allocated in one loop; here array by array. -/
def newField (nr nz : ℕ) : HP FieldPtr := do
  let r ← newMat nr (8 * nz)
  let phi ← newMat nr (8 * nz)
  let z ← newMat nr (8 * nz)
  return ⟨r, phi, z⟩

/-- `Field::~Field`, src/field.cpp:27-40 (array by array) -/
def delField (nr : ℕ) (x : FieldPtr) : HP Unit := do
  delMat (nr - 1) x.r
  delMat (nr - 1) x.phi
  delMat (nr - 1) x.z

/-- `new EField(geom)`, src/eField.cpp:12-23 -/
def newEField (size nr nz : ℕ) : HP (ℕ × FieldPtr × Mat) := do
  let self ← HP.newOne size
  let x ← newField nr nz
  let fi ← newMat nr (8 * nz)
  return (self, x, fi)

/-- `delete efield`: `EField::~EField`, src/eField.cpp:26-31, and `~Field` -/
def delEField (nr : ℕ) (x : ℕ × FieldPtr × Mat) : HP Unit := do
  delMat nr x.2.2
  delField nr x.2.1
  HP.delOne x.1

/-- `new HField(geom)`, src/hField.cpp:7-24 -/
def newHField (size nr nz : ℕ) : HP (ℕ × FieldPtr × FieldPtr) := do
  let self ← HP.newOne size
  let x ← newField nr nz
  let r ← newMat nr (8 * (nz - 1))
  let phi ← newMat (nr - 1) (8 * (nz - 1))
  let z ← newMat (nr - 1) (8 * nz)
  return (self, x, ⟨r, phi, z⟩)

/-- `delete hfield`: `HField::~HField`, src/hField.cpp:47-60, and `~Field` -/
def delHField (nr : ℕ) (x : ℕ × FieldPtr × FieldPtr) : HP Unit := do
  delMat (nr - 1) x.2.2.r
  delMat (nr - 1) x.2.2.phi
  delMat (nr - 1) x.2.2.z
  delField nr x.2.1
  HP.delOne x.1

/-- pointers of a `Current` -/
structure CurrentPtr where
  (self : ℕ) (r phi z : Mat) (r1 phi1 z1 : ℕ)

/-- `new Current(geom)`, src/current.cpp:7-34 -/
def newCurrent (size nr nz : ℕ) : HP CurrentPtr := do
  let self ← HP.newOne size
  let r1 ← HP.newMany (8 * (nr * nz))
  let phi1 ← HP.newMany (8 * (nr * nz))
  let z1 ← HP.newMany (8 * (nr * nz))
  let r ← newMat nr (8 * nz)
  let phi ← newMat nr (8 * nz)
  let z ← newMat nr (8 * nz)
  return ⟨self, r, phi, z, r1, phi1, z1⟩

/-- `delete current`: `Current::~Current`, src/current.cpp:66-83 -/
def delCurrent (nr : ℕ) (x : CurrentPtr) : HP Unit := do
  delMat (nr - 1) x.r
  delMat nr x.phi
  delMat (nr - 1) x.z
  HP.delOne x.r1
  HP.delOne x.phi1
  HP.delOne x.z1
  HP.delOne x.self

/-! ## Solver of Poisson's equation -/

/-- `Fourier::fast_sine_transform`, src/math/fourier.cpp:17-51: its buffer of 2 n + 2 complex numbers -/
def sineHeap (n : ℕ) : HP ℕ := HP.newMany (16 * (2 * n + 2))

/-- `PoissonDirichlet::poisson_solve`, src/poissonDirichlet.cpp:23-98: the transforms of the rows run in threads. -/
def SolveHeap (nr nz : ℕ) (H H' : Heap) : Prop :=
  ∃ a b H1 xs H2 ys H3, HRun (do let a ← HP.newMany (8 * nr); let b ← HP.newMany (8 * nr); return (a, b)) H (a, b) H1 ∧
    ParRun (List.replicate nr (sineHeap nz)) H1 xs H2 ∧ ParRun (List.replicate nr (sineHeap nz)) H2 ys H3 ∧
    HRun (do HP.delMany a; HP.delMany b) H3 () H'

/-! ## A run -/

/-- a push: `get_field` twice (each returns a new vector, lib/tinyvec3d/tinyvec3d.cpp:16-24), the vectors are given back at the
end of `boris_pusher_single` and `vay_pusher_single`, src/particles.cpp:1054-1149, 1152-1254 -/
def pushHeap : HP Unit := do
  let e ← HP.newMany 24
  let b ← HP.newMany 24
  HP.delMany e
  HP.delMany b

/-- A probe that fires: field, density and temperature probes write `files` = 1 file for each array, macroparticle probes 5
files for each species of that name. -/
structure Fire where
  files : ℕ

/-- `get_data_path` for each file, src/probePlain.cpp:69-78: the name is not given back by `write_frame` etc. -/
def pathsHeap : ℕ → HP Unit
  | 0 => pure ()
  | n + 1 => do
    let _ ← HP.newMany 100
    pathsHeap n

/-- one probe in `dump_data`, src/loadInitParam.cpp:319-412: the line on the terminal with the duration
(`get_simulation_duration`, src/lib.cpp:82-120, one byte) and the files -/
def fireHeap (x : Fire) : HP Unit := do
  let _ ← HP.newOne 1
  pathsHeap x.files

/-- `dump_data`, src/loadInitParam.cpp:319-412 -/
def dumpHeap : List Fire → HP Unit
  | [] => pure ()
  | x :: l => do
    fireHeap x
    dumpHeap l

/-- What happens in a cycle: bunches that are removed, whether a bunch is created, live macroparticles that are pushed, probes
that fire -/
structure CycleEv where
  removed : ℕ → Bool
  created : Bool
  pushes : ℕ
  fires : List Fire

/-- objects of the bunches: address and arrays -/
abbrev BunchPtr := ℕ × PartPtr

/-- Removal of finished bunches, src/loadInitParam.cpp:190-218. What the loop does to the vectors (C53) is left out: the bunches
in `gone` are deleted, each once. -/
def eraseHeap (gone : ℕ → Bool) : List BunchPtr → HP (List BunchPtr)
  | [] => pure []
  | b :: l =>
    if gone b.1 then do
      delPart b.2
      HP.delOne b.1
      eraseHeap gone l
    else do
      let l' ← eraseHeap gone l
      return b :: l'

/-- `init_beam`, src/loadInitParam.cpp:168-247; `size` is the size of a `Bunch`, `number` its macroparticles. A bunch keeps the
pointer to its name, which is not given back with it; names that no bunch was made for are not given back either. -/
def beamHeap (size number : ℕ) (e : CycleEv) (bs : List BunchPtr) : HP (List BunchPtr) := do
  let _ ← HP.newMany 100
  let bs' ← eraseHeap e.removed bs
  if e.created then do
    let self ← HP.newOne size
    let x ← newPart number
    return bs' ++ [(self, x)]
  else return bs'

/-- A cycle of the main loop, src/loadInitParam.cpp:466-540. The other functions it calls do not allocate. -/
def HeapCycle (size number : ℕ) (e : CycleEv) (bs : List BunchPtr) (H : Heap) (bs' : List BunchPtr) (H' : Heap) : Prop :=
  ∃ H1 xs H2, HRun (beamHeap size number e bs) H bs' H1 ∧ ParRun (List.replicate e.pushes pushHeap) H1 xs H2 ∧
    HRun (dumpHeap e.fires) H2 () H'

/-- a run of `n` cycles -/
inductive HeapRun (size number : ℕ) (ev : ℕ → CycleEv) (bs : List BunchPtr) (H : Heap) :
    ℕ → List BunchPtr → Heap → Prop
  | start : HeapRun size number ev bs H 0 bs H
  | step {n bs1 H1 bs2 H2} (r : HeapRun size number ev bs H n bs1 H1) (c : HeapCycle size number (ev n) bs1 H1 bs2 H2) :
      HeapRun size number ev bs H (n + 1) bs2 H2

/-- Undefined behaviour in a cycle -/
def HeapCycleFault (size number : ℕ) (e : CycleEv) (bs : List BunchPtr) (H : Heap) : Prop :=
  HFault (beamHeap size number e bs) H ∨
  ∃ bs' H1, HRun (beamHeap size number e bs) H bs' H1 ∧ (ParFault (List.replicate e.pushes pushHeap) H1 ∨
    ∃ xs H2, ParRun (List.replicate e.pushes pushHeap) H1 xs H2 ∧ HFault (dumpHeap e.fires) H2)

end Verif
