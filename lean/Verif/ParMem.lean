import Mathlib.Data.Real.Basic
import Mathlib.Logic.Relation
import Mathlib.Logic.Function.Basic
import Mathlib.Tactic.Common

/-!
# Shared-memory parallel loops

A small operational model of `#pragma omp parallel` regions made of `#pragma omp for` loops.

* A loop iteration is a program (`Prog`) that loads and stores doubles one at a time.
* A loop is a pool of programs; the machine repeatedly picks any unfinished one and lets it do its
  next load or store.  Every assignment of iterations to threads and every interleaving of the
  threads is one such execution (this allows more interleavings than OpenMP, which runs the
  iterations given to one thread one after another).
* The implicit barrier at the end of an `omp for` loop is sequencing of pools.
* Loading a double that was never stored, and loading or storing outside an allocation, is a
  fault.
-/

namespace Verif

/-- Memory contents; `none` is "never written" (or not allocated). -/
abbrev Mem (L : Type) := L → Option ℝ

/-- Programs that load and store doubles. -/
inductive Prog (L : Type) (α : Type) where
  | ret (a : α)
  | load (l : L) (k : ℝ → Prog L α)
  | store (l : L) (v : ℝ) (k : Prog L α)

namespace Prog
variable {L α β : Type}

/-- sequencing -/
def bind : Prog L α → (α → Prog L β) → Prog L β
  | ret a, f => f a
  | load l k, f => load l (fun v => bind (k v) f)
  | store l v k, f => store l v (bind k f)

instance : Monad (Prog L) where
  pure := ret
  bind := bind

/-- a single load `x = a[i][k]` -/
def rd (l : L) : Prog L ℝ := load l ret
/-- a single store `a[i][k] = v` -/
def wr (l : L) (v : ℝ) : Prog L Unit := store l v (ret ())

@[simp] theorem pure_eq (a : α) : (pure a : Prog L α) = ret a := rfl
@[simp] theorem bind_eq (p : Prog L α) (f : α → Prog L β) : (p >>= f) = bind p f := rfl
@[simp] theorem bind_ret (a : α) (f : α → Prog L β) : bind (ret a) f = f a := rfl
@[simp] theorem bind_load (l : L) (k : ℝ → Prog L α) (f : α → Prog L β) :
    bind (load l k) f = load l (fun v => bind (k v) f) := rfl
@[simp] theorem bind_store (l : L) (v : ℝ) (k : Prog L α) (f : α → Prog L β) :
    bind (store l v k) f = store l v (bind k f) := rfl

/-- the program may load `l` in some execution -/
def MayLoad (x : L) : Prog L α → Prop
  | ret _ => False
  | load l k => l = x ∨ ∃ v, MayLoad x (k v)
  | store _ _ k => MayLoad x k

/-- the program may store to `l` in some execution -/
def MayStore (x : L) : Prog L α → Prop
  | ret _ => False
  | load _ k => ∃ v, MayStore x (k v)
  | store l _ k => l = x ∨ MayStore x k

end Prog

/-- an iteration of a loop -/
abbrev Task (L : Type) := Prog L Unit

variable {L ι : Type} [DecidableEq L] [DecidableEq ι]

/-- The iteration executed alone. `none` is a fault. -/
def solo (alloc : L → Prop) [DecidablePred alloc] : Task L → Mem L → Option (Mem L)
  | .ret _, m => some m
  | .load l k, m => match m l with
    | none => none
    | some v => if alloc l then solo alloc (k v) m else none
  | .store l v k, m => if alloc l then solo alloc k (Function.update m l (some v)) else none

/-- A running loop: what is left of each iteration, and memory. -/
abbrev PoolState (L ι : Type) := (ι → Task L) × Mem L

/-- One load or store of one unfinished iteration. -/
inductive PoolStep (alloc : L → Prop) : PoolState L ι → PoolState L ι → Prop
  | load (P : ι → Task L) (m : Mem L) (i : ι) (l : L) (k : ℝ → Task L) (v : ℝ)
      (hP : P i = .load l k) (ha : alloc l) (hm : m l = some v) :
      PoolStep alloc (P, m) (Function.update P i (k v), m)
  | store (P : ι → Task L) (m : Mem L) (i : ι) (l : L) (v : ℝ) (k : Task L)
      (hP : P i = .store l v k) (ha : alloc l) :
      PoolStep alloc (P, m) (Function.update P i k, Function.update m l (some v))

/-- The next action of some iteration is a load of an unwritten or unallocated cell or a store to
an unallocated cell. -/
def PoolFault (alloc : L → Prop) (s : PoolState L ι) : Prop :=
  (∃ i l k, s.1 i = .load l k ∧ (¬ alloc l ∨ s.2 l = none)) ∨
  (∃ i l v k, s.1 i = .store l v k ∧ ¬ alloc l)

/-- States a loop can reach under some schedule. -/
abbrev PoolReach (alloc : L → Prop) (s t : PoolState L ι) : Prop :=
  Relation.ReflTransGen (PoolStep alloc) s t

/-- All iterations are finished. -/
def PoolDone (s : PoolState L ι) : Prop := ∀ i, s.1 i = .ret ()

/-- No two different iterations touch a common cell that one of them stores to. -/
def RaceFree (P : ι → Task L) : Prop :=
  ∀ i j, i ≠ j → ∀ l, (P i).MayStore l → ¬ (P j).MayStore l ∧ ¬ (P j).MayLoad l

/-- A parallel region: loops separated by barriers. -/
abbrev Region (L ι : Type) := List (ι → Task L)

/-- The region can run from `m` to completion leaving `m'`. -/
inductive RegionRun (alloc : L → Prop) : Region L ι → Mem L → Mem L → Prop
  | nil (m) : RegionRun alloc [] m m
  | cons (P : ι → Task L) (rest : Region L ι) (m : Mem L) (s : PoolState L ι) (m' : Mem L)
      (h : PoolReach alloc (P, m) s) (hd : PoolDone s) (hr : RegionRun alloc rest s.2 m') :
      RegionRun alloc (P :: rest) m m'

/-- The region can fault from `m` under some schedule. -/
inductive RegionFault (alloc : L → Prop) : Region L ι → Mem L → Prop
  | here (P : ι → Task L) (rest : Region L ι) (m : Mem L) (s : PoolState L ι)
      (h : PoolReach alloc (P, m) s) (hf : PoolFault alloc s) : RegionFault alloc (P :: rest) m
  | later (P : ι → Task L) (rest : Region L ι) (m : Mem L) (s : PoolState L ι)
      (h : PoolReach alloc (P, m) s) (hd : PoolDone s) (hr : RegionFault alloc rest s.2) :
      RegionFault alloc (P :: rest) m

/-! ## Frame property of single iterations -/

section
variable (alloc : L → Prop) [DecidablePred alloc]

/-- cells the program may touch -/
def Prog.Touches (p : Task L) (l : L) : Prop := p.MayLoad l ∨ p.MayStore l

theorem solo_frame {p : Task L} : ∀ {m m' a : Mem L},
    (∀ l, p.Touches l → m l = m' l) → solo alloc p m = some a →
    ∃ a', solo alloc p m' = some a' ∧ ∀ l, (p.Touches l → a l = a' l) ∧
      (m l = m' l → a l = a' l) := by
  induction p with
  | ret u =>
    intro m m' a h hs
    simp only [solo, Option.some.injEq] at hs
    subst hs
    exact ⟨m', rfl, fun l => ⟨fun hl => h l hl, fun hl => hl⟩⟩
  | load l k ih =>
    intro m m' a h hs
    have hl : m l = m' l := h l (Or.inl (Or.inl rfl))
    cases hv : m l with
    | none => simp [solo, hv] at hs
    | some v =>
      by_cases ha : alloc l
      · simp only [solo, hv, ha, if_true] at hs
        obtain ⟨a', h1, h2⟩ := ih v (m := m) (m' := m') (a := a) (by
          intro x hx
          apply h x
          rcases hx with hx | hx
          · exact Or.inl (Or.inr ⟨v, hx⟩)
          · exact Or.inr ⟨v, hx⟩) hs
        refine ⟨a', ?_, ?_⟩
        · simp only [solo, ← hl, hv, ha, if_true, h1]
        · intro x
          refine ⟨fun hx => (h2 x).2 (h x hx), (h2 x).2⟩
      · simp [solo, hv, ha] at hs
  | store l v k ih =>
    intro m m' a h hs
    by_cases ha : alloc l
    · simp only [solo, ha, if_true] at hs
      obtain ⟨a', h1, h2⟩ := ih (m := Function.update m l (some v))
        (m' := Function.update m' l (some v)) (a := a) (by
          intro x hx
          by_cases e : x = l
          · subst e; simp
          · rw [Function.update_of_ne e, Function.update_of_ne e]
            apply h x
            rcases hx with hx | hx
            · exact Or.inl hx
            · exact Or.inr (Or.inr hx)) hs
      refine ⟨a', ?_, ?_⟩
      · simp only [solo, ha, if_true, h1]
      · intro x
        have key : m x = m' x → a x = a' x := by
          intro hx
          apply (h2 x).2
          by_cases e : x = l
          · subst e; simp
          · rw [Function.update_of_ne e, Function.update_of_ne e]; exact hx
        exact ⟨fun hx => key (h x hx), key⟩
    · simp [solo, ha] at hs

/-- an iteration changes only cells it may store to -/
theorem solo_unchanged {p : Task L} : ∀ {m a : Mem L}, solo alloc p m = some a →
    ∀ l, ¬ p.MayStore l → a l = m l := by
  induction p with
  | ret u => intro m a hs l _; simp only [solo, Option.some.injEq] at hs; rw [hs]
  | load x k ih =>
    intro m a hs l hl
    cases hv : m x with
    | none => simp [solo, hv] at hs
    | some v =>
      by_cases ha : alloc x
      · simp only [solo, hv, ha, if_true] at hs
        exact ih v hs l (fun h => hl ⟨v, h⟩)
      · simp [solo, hv, ha] at hs
  | store x v k ih =>
    intro m a hs l hl
    by_cases ha : alloc x
    · simp only [solo, ha, if_true] at hs
      rw [ih hs l (fun h => hl (Or.inr h)), Function.update_of_ne]
      rintro rfl; exact hl (Or.inl rfl)
    · simp [solo, ha] at hs

/-! ## Race-free loops are deterministic -/

/-- Invariant of an execution of a race-free loop. -/
structure PoolInv (P0 : ι → Task L) (m0 : Mem L) (res : ι → Mem L) (s : PoolState L ι) : Prop where
  touch_load : ∀ i l, (s.1 i).MayLoad l → (P0 i).MayLoad l
  touch_store : ∀ i l, (s.1 i).MayStore l → (P0 i).MayStore l
  same : ∀ l, (∀ i, ¬ (P0 i).MayStore l) → s.2 l = m0 l
  todo : ∀ i, ∃ a, solo alloc (s.1 i) s.2 = some a ∧
    ∀ l, (P0 i).MayStore l → a l = res i l

theorem PoolInv.step {P0 : ι → Task L} {m0 : Mem L} {res : ι → Mem L} (hrf : RaceFree P0)
    {s t : PoolState L ι} (hst : PoolStep alloc s t) (h : PoolInv alloc P0 m0 res s) :
    PoolInv alloc P0 m0 res t := by
  obtain ⟨h1, h2, h3, h4⟩ := h
  cases hst with
  | load P m j l k v hP ha hm =>
    dsimp only at h1 h2 h3 h4
    refine ⟨?_, ?_, h3, ?_⟩ <;> dsimp only
    · intro i x hx
      by_cases e : i = j
      · subst e
        rw [Function.update_self] at hx
        exact h1 i x (by rw [hP]; exact Or.inr ⟨v, hx⟩)
      · rw [Function.update_of_ne e] at hx; exact h1 i x hx
    · intro i x hx
      by_cases e : i = j
      · subst e
        rw [Function.update_self] at hx
        exact h2 i x (by rw [hP]; exact ⟨v, hx⟩)
      · rw [Function.update_of_ne e] at hx; exact h2 i x hx
    · intro i
      by_cases e : i = j
      · subst e
        obtain ⟨a, ha1, ha2⟩ := h4 i
        refine ⟨a, ?_, ha2⟩
        rw [hP] at ha1
        simp only [solo, hm, ha, if_true] at ha1
        simpa using ha1
      · obtain ⟨a, ha1, ha2⟩ := h4 i
        exact ⟨a, by rw [Function.update_of_ne e]; exact ha1, ha2⟩
  | store P m j l v k hP ha =>
    dsimp only at h1 h2 h3 h4
    have hw : (P0 j).MayStore l := h2 j l (by rw [hP]; exact Or.inl rfl)
    refine ⟨?_, ?_, ?_, ?_⟩ <;> dsimp only
    · intro i x hx
      by_cases e : i = j
      · subst e
        rw [Function.update_self] at hx
        exact h1 i x (by rw [hP]; exact hx)
      · rw [Function.update_of_ne e] at hx; exact h1 i x hx
    · intro i x hx
      by_cases e : i = j
      · subst e
        rw [Function.update_self] at hx
        exact h2 i x (by rw [hP]; exact Or.inr hx)
      · rw [Function.update_of_ne e] at hx; exact h2 i x hx
    · intro x hx
      have : x ≠ l := by rintro rfl; exact hx j hw
      rw [Function.update_of_ne this]; exact h3 x hx
    · intro i
      by_cases e : i = j
      · subst e
        obtain ⟨a, ha1, ha2⟩ := h4 i
        refine ⟨a, ?_, ha2⟩
        rw [hP] at ha1
        simp only [solo, ha, if_true] at ha1
        simpa using ha1
      · obtain ⟨a, ha1, ha2⟩ := h4 i
        have hrace := hrf j i (Ne.symm e) l hw
        obtain ⟨a', hb1, hb2⟩ := solo_frame alloc (m' := Function.update m l (some v)) (by
          intro x hx
          have : x ≠ l := by
            rintro rfl
            rcases hx with hx | hx
            · exact hrace.2 (h1 i x hx)
            · exact hrace.1 (h2 i x hx)
          rw [Function.update_of_ne this]) ha1
        refine ⟨a', by rw [Function.update_of_ne e]; exact hb1, ?_⟩
        intro x hx
        rw [← ha2 x hx]
        symm
        apply (hb2 x).2
        have : x ≠ l := by rintro rfl; exact hrace.1 hx
        rw [Function.update_of_ne this]

omit [DecidableEq ι] in
theorem PoolInv.init {P0 : ι → Task L} {m0 : Mem L} {res : ι → Mem L}
    (hsolo : ∀ i, solo alloc (P0 i) m0 = some (res i)) : PoolInv alloc P0 m0 res (P0, m0) :=
  ⟨fun _ _ h => h, fun _ _ h => h, fun _ _ => rfl, fun i => ⟨res i, hsolo i, fun _ _ => rfl⟩⟩

theorem PoolInv.reach {P0 : ι → Task L} {m0 : Mem L} {res : ι → Mem L} (hrf : RaceFree P0)
    (hsolo : ∀ i, solo alloc (P0 i) m0 = some (res i)) {s : PoolState L ι}
    (h : PoolReach alloc (P0, m0) s) : PoolInv alloc P0 m0 res s := by
  induction h with
  | refl => exact PoolInv.init alloc hsolo
  | tail _ hst ih => exact PoolInv.step alloc hrf hst ih

/-- A race-free loop whose iterations run alone without fault never faults. -/
theorem pool_no_fault {P0 : ι → Task L} {m0 : Mem L} {res : ι → Mem L} (hrf : RaceFree P0)
    (hsolo : ∀ i, solo alloc (P0 i) m0 = some (res i)) {s : PoolState L ι}
    (h : PoolReach alloc (P0, m0) s) : ¬ PoolFault alloc s := by
  have inv := PoolInv.reach alloc hrf hsolo h
  rintro (⟨i, l, k, hi, hbad⟩ | ⟨i, l, v, k, hi, hbad⟩)
  · obtain ⟨a, ha, -⟩ := inv.todo i
    rw [hi] at ha
    cases hv : s.2 l with
    | none => simp [solo, hv] at ha
    | some v =>
      by_cases hal : alloc l
      · rcases hbad with hb | hb
        · exact hb hal
        · rw [hv] at hb; cases hb
      · simp [solo, hv, hal] at ha
  · obtain ⟨a, ha, -⟩ := inv.todo i
    rw [hi] at ha
    simp [solo, hbad] at ha

/-- The memory a finished race-free loop leaves. -/
theorem pool_result {P0 : ι → Task L} {m0 : Mem L} {res : ι → Mem L} (hrf : RaceFree P0)
    (hsolo : ∀ i, solo alloc (P0 i) m0 = some (res i)) {s : PoolState L ι}
    (h : PoolReach alloc (P0, m0) s) (hd : PoolDone s) :
    (∀ i l, (P0 i).MayStore l → s.2 l = res i l) ∧
    (∀ l, (∀ i, ¬ (P0 i).MayStore l) → s.2 l = m0 l) := by
  have inv := PoolInv.reach alloc hrf hsolo h
  refine ⟨?_, inv.same⟩
  intro i l hl
  obtain ⟨a, ha, hr⟩ := inv.todo i
  rw [hd i] at ha
  simp only [solo, Option.some.injEq] at ha
  rw [ha]; exact hr l hl

/-- running one iteration to its end inside a pool -/
theorem pool_run_one (p : Task L) : ∀ (P : ι → Task L) (i : ι) (m a : Mem L), P i = p →
    solo alloc p m = some a → PoolReach alloc (P, m) (Function.update P i (.ret ()), a) := by
  induction p with
  | ret u =>
    intro P i m a hP hs
    simp only [solo, Option.some.injEq] at hs
    subst hs
    have : Function.update P i (Prog.ret ()) = P := by
      funext j
      by_cases e : j = i
      · subst e; rw [Function.update_self, hP]
      · rw [Function.update_of_ne e]
    rw [this]
  | load l k ih =>
    intro P i m a hP hs
    cases hv : m l with
    | none => simp [solo, hv] at hs
    | some v =>
      by_cases ha : alloc l
      · simp only [solo, hv, ha, if_true] at hs
        refine Relation.ReflTransGen.head (PoolStep.load P m i l k v hP ha hv) ?_
        have := ih v (Function.update P i (k v)) i m a (by simp) hs
        simpa using this
      · simp [solo, hv, ha] at hs
  | store l v k ih =>
    intro P i m a hP hs
    by_cases ha : alloc l
    · simp only [solo, ha, if_true] at hs
      refine Relation.ReflTransGen.head (PoolStep.store P m i l v k hP ha) ?_
      have := ih (Function.update P i k) i _ a (by simp) hs
      simpa using this
    · simp [solo, ha] at hs

/-- A loop with finitely many non-trivial iterations can run to completion. -/
theorem pool_completes {P0 : ι → Task L} {m0 : Mem L} {res : ι → Mem L} (hrf : RaceFree P0)
    (hsolo : ∀ i, solo alloc (P0 i) m0 = some (res i)) (idx : List ι)
    (hidx : ∀ i, i ∉ idx → P0 i = .ret ()) :
    ∃ s, PoolReach alloc (P0, m0) s ∧ PoolDone s := by
  have key : ∀ (l : List ι) (s : PoolState L ι), PoolReach alloc (P0, m0) s →
      ∃ t, PoolReach alloc (P0, m0) t ∧ (∀ i ∈ l, t.1 i = .ret ()) ∧
        ∀ i, s.1 i = .ret () → t.1 i = .ret () := by
    intro l
    induction l with
    | nil => intro s hs; exact ⟨s, hs, by simp, fun _ h => h⟩
    | cons j l ih =>
      intro s hs
      obtain ⟨a, ha, -⟩ := (PoolInv.reach alloc hrf hsolo hs).todo j
      have h1 := pool_run_one alloc (s.1 j) s.1 j s.2 a rfl ha
      obtain ⟨t, ht1, ht2, ht3⟩ := ih _ (hs.trans h1)
      refine ⟨t, ht1, ?_, ?_⟩
      · intro i hi
        rcases List.mem_cons.1 hi with rfl | hi
        · apply ht3; simp
        · exact ht2 i hi
      · intro i hi
        apply ht3
        by_cases e : i = j
        · subst e; simp
        · simp only; rw [Function.update_of_ne e]; exact hi
  obtain ⟨t, h1, h2, h3⟩ := key idx (P0, m0) Relation.ReflTransGen.refl
  refine ⟨t, h1, ?_⟩
  intro i
  by_cases hi : i ∈ idx
  · exact h2 i hi
  · exact h3 i (hidx i hi)

/-! ## Regions -/

/-- `P` is race free, its iterations run alone from `m` without fault, and `m'` is what they leave
together. -/
structure LoopSpec (P : ι → Task L) (m m' : Mem L) : Prop where
  raceFree : RaceFree P
  finite : ∃ idx : List ι, ∀ i, i ∉ idx → P i = .ret ()
  result : ∃ res : ι → Mem L, (∀ i, solo alloc (P i) m = some (res i)) ∧
    (∀ i l, (P i).MayStore l → m' l = res i l) ∧ (∀ l, (∀ i, ¬ (P i).MayStore l) → m' l = m l)

theorem LoopSpec.no_fault {P : ι → Task L} {m m' : Mem L} (h : LoopSpec alloc P m m')
    {s : PoolState L ι} (hs : PoolReach alloc (P, m) s) : ¬ PoolFault alloc s := by
  obtain ⟨res, h1, -, -⟩ := h.result
  exact pool_no_fault alloc h.raceFree h1 hs

theorem LoopSpec.unique {P : ι → Task L} {m m' : Mem L} (h : LoopSpec alloc P m m')
    {s : PoolState L ι} (hs : PoolReach alloc (P, m) s) (hd : PoolDone s) : s.2 = m' := by
  obtain ⟨res, h1, h2, h3⟩ := h.result
  obtain ⟨r1, r2⟩ := pool_result alloc h.raceFree h1 hs hd
  funext l
  by_cases hl : ∀ i, ¬ (P i).MayStore l
  · rw [r2 l hl, h3 l hl]
  · push Not at hl
    obtain ⟨i, hi⟩ := hl
    rw [r1 i l hi, h2 i l hi]

theorem LoopSpec.completes {P : ι → Task L} {m m' : Mem L} (h : LoopSpec alloc P m m') :
    ∃ s, PoolReach alloc (P, m) s ∧ PoolDone s ∧ s.2 = m' := by
  obtain ⟨res, h1, -, -⟩ := h.result
  obtain ⟨idx, hidx⟩ := h.finite
  obtain ⟨s, hs, hd⟩ := pool_completes alloc h.raceFree h1 idx hidx
  exact ⟨s, hs, hd, h.unique alloc hs hd⟩

/-- Every loop of the region meets `LoopSpec` in turn. -/
inductive RegionSpec : Region L ι → Mem L → Mem L → Prop
  | nil (m) : RegionSpec [] m m
  | cons {P : ι → Task L} {rest : Region L ι} {m m1 m' : Mem L} (h : LoopSpec alloc P m m1)
      (hr : RegionSpec rest m1 m') : RegionSpec (P :: rest) m m'

/-- Under every schedule a region that meets `RegionSpec` does not fault; it can complete, and
every completed execution leaves the same memory. -/
theorem RegionSpec.sound {R : Region L ι} {m m' : Mem L} (h : RegionSpec alloc R m m') :
    ¬ RegionFault alloc R m ∧ RegionRun alloc R m m' ∧
      ∀ m'', RegionRun alloc R m m'' → m'' = m' := by
  induction h with
  | nil m =>
    refine ⟨(fun h => by cases h), RegionRun.nil m, ?_⟩
    intro m'' h; cases h; rfl
  | cons h _ ih =>
    obtain ⟨i1, i2, i3⟩ := ih
    refine ⟨?_, ?_, ?_⟩
    · intro hf
      cases hf with
      | here _ _ _ s hs hf => exact h.no_fault alloc hs hf
      | later _ _ _ s hs hd hr => rw [h.unique alloc hs hd] at hr; exact i1 hr
    · obtain ⟨s, hs, hd, e⟩ := h.completes alloc
      exact RegionRun.cons _ _ _ s _ hs hd (by rw [e]; exact i2)
    · intro m'' hr
      cases hr with
      | cons _ _ _ s _ hs hd hr => rw [h.unique alloc hs hd] at hr; exact i3 _ hr

omit [DecidableEq ι] in
theorem RegionSpec.append {R S : Region L ι} {m m1 m' : Mem L} (h : RegionSpec alloc R m m1)
    (h2 : RegionSpec alloc S m1 m') : RegionSpec alloc (R ++ S) m m' := by
  induction h with
  | nil m => exact h2
  | cons h _ ih => exact RegionSpec.cons h (ih h2)

omit [DecidableEq L] [DecidableEq ι] in
/-- Race freedom from an ownership function: every cell stored by the loop is touched by its owner
only. -/
theorem raceFree_of_owner {P : ι → Task L} (own : L → ι) (S : L → Prop)
    (h1 : ∀ t l, (P t).MayStore l → S l ∧ own l = t)
    (h2 : ∀ t l, (P t).MayLoad l → S l → own l = t) : RaceFree P := by
  intro i j hij l hl
  obtain ⟨hS, hi⟩ := h1 i l hl
  refine ⟨fun h => hij ?_, fun h => hij ?_⟩
  · rw [← hi, (h1 j l h).2]
  · rw [← hi, h2 j l h hS]

/-- symbolic execution of one load -/
theorem solo_load {l : L} {k : ℝ → Task L} {m : Mem L} {v : ℝ} (ha : alloc l) (h : m l = some v) :
    solo alloc (.load l k) m = solo alloc (k v) m := by
  simp only [solo, h, ha, if_true]

/-- symbolic execution of one store -/
theorem solo_store {l : L} {v : ℝ} {k : Task L} {m : Mem L} (ha : alloc l) :
    solo alloc (.store l v k) m = solo alloc k (Function.update m l (some v)) := by
  simp only [solo, ha, if_true]

end

end Verif
