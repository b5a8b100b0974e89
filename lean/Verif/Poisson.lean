import Verif.Fft
import Verif.Tridiag

/-!
# Poisson solver

Models `PoissonDirichlet::poisson_solve` (src/poissonDirichlet.cpp:23-98), `EField::set_fi_on_z`
(src/eField.cpp:173-178) and the beginning of `PoissonNeumann::poisson_solve` (src/poissonNeumann.cpp:21-50).  None of
them is called by the main program.

Simplifications:
* The constant `PI` is a parameter `P` as in `Fft.lean`.
* The rows are transformed independently of each other (each call works on its own row).
* The contents of freshly allocated `alpha` and `beta` are arbitrary values.
* The method of the null pointer `four1` is called as a function that does not use its object.
-/

namespace Verif

/-- `EField::set_fi_on_z`, src/eField.cpp:173-178 -/
def setFiOnZ (G : Geom) (fi : ℕ → ℕ → ℝ) : ℕ → ℕ → ℝ :=
  fun i k => if i = G.nr - 1 ∧ k < G.nz then 0 else fi i k

/-- `b`, src/poissonDirichlet.cpp:57 -/
noncomputable def sweepB (P : ℝ) (G : Geom) (k : ℕ) : ℝ :=
  2 * (1 - G.dr * G.dr / (G.dz * G.dz) * (Real.cos (P * ((k : ℝ) + 1) / ((G.nz : ℝ) + 1)) - 1))

/-- One iteration of the forward sweep, src/poissonDirichlet.cpp:62-72; `t` is the column `k` of the transformed
charge density. -/
noncomputable def sweepFwd (G : Geom) (b : ℝ) (t : ℕ → ℝ) (s : (ℕ → ℝ) × (ℕ → ℝ)) (i : ℕ) :
    Option ((ℕ → ℝ) × (ℕ → ℝ)) := do
  let h ← divN 1 (2 * (i : ℝ))
  let a := 1 - h
  let c := 1 + h
  let ti ← ldN G.nr t i
  let d := G.dr * G.dr * ti / EPSILON0
  let al ← ldN G.nr s.1 i
  let q ← divN c (b - al * a)
  let alpha ← stN G.nr s.1 ((i : ℤ) + 1) q
  let be ← ldN G.nr s.2 i
  let al' ← ldN G.nr alpha i
  let q' ← divN (d + be * a) (b - al' * a)
  let beta ← stN G.nr s.2 ((i : ℤ) + 1) q'
  return (alpha, beta)

/-- One iteration of the backward sweep, src/poissonDirichlet.cpp:75-76; `f` is the column `k` of the potential. -/
noncomputable def sweepBack (G : Geom) (s : (ℕ → ℝ) × (ℕ → ℝ)) (f : ℕ → ℝ) (i : ℕ) : Option (ℕ → ℝ) := do
  let be ← ldN G.nr s.2 ((i : ℤ) + 1)
  let al ← ldN G.nr s.1 ((i : ℤ) + 1)
  let fn ← ldN G.nr f ((i : ℤ) + 1)
  stN G.nr f i (be + al * fn)

/-- The sweep for one `k`, src/poissonDirichlet.cpp:54-77: new column of the potential, new `alpha`, `beta` -/
noncomputable def sweepCol (P : ℝ) (G : Geom) (k : ℕ) (t f : ℕ → ℝ) (s : (ℕ → ℝ) × (ℕ → ℝ)) :
    Option ((ℕ → ℝ) × (ℕ → ℝ) × (ℕ → ℝ)) := do
  let b := sweepB P G k
  let t0 ← ldN G.nr t 0
  let d := G.dr * G.dr * t0 / EPSILON0
  let q ← divN 4 (2 + b)
  let alpha ← stN G.nr s.1 1 q
  let q' ← divN d (2 + b)
  let beta ← stN G.nr s.2 1 q'
  let s ← (List.range' 1 (G.nr - 2)).foldlM (sweepFwd G b t) (alpha, beta)
  let f ← (List.range (G.nr - 1)).reverse.foldlM (sweepBack G s) f
  return (f, s)

/-- The loop over `k`, src/poissonDirichlet.cpp:54-77 -/
noncomputable def sweepAll (P : ℝ) (G : Geom) (t fi : ℕ → ℕ → ℝ) (s : (ℕ → ℝ) × (ℕ → ℝ)) :
    Option ((ℕ → ℕ → ℝ) × (ℕ → ℝ) × (ℕ → ℝ)) :=
  (List.range G.nz).foldlM (fun (st : (ℕ → ℕ → ℝ) × (ℕ → ℝ) × (ℕ → ℝ)) k =>
    (sweepCol P G k (fun i => t i k) (fun i => st.1 i k) st.2).map fun r =>
      ((fun i k' => if k' = k then r.1 i else st.1 i k'), r.2)) (fi, s)

/-- Sine transform of all rows, src/poissonDirichlet.cpp:49-51 and 80-85 -/
def RowsSine (P : ℝ) (nr n : ℕ) (inv : Bool) (a : ℕ → ℕ → ℝ) (res : Option (ℕ → ℕ → ℝ)) : Prop :=
  (∃ i < nr, SineTransform P n inv (a i) none ∧ res = none) ∨
  ∃ b : ℕ → ℕ → ℝ, (∀ i < nr, SineTransform P n inv (a i) (some (b i))) ∧ (∀ i, nr ≤ i → b i = a i) ∧ res = some b

/-- `e1` after lines 88-90 of src/poissonDirichlet.cpp -/
noncomputable def potentialEr (G : Geom) (fi e1 : ℕ → ℕ → ℝ) : ℕ → ℕ → ℝ :=
  fun i k => if i < G.nr - 1 ∧ k < G.nz then (fi i k - fi (i + 1) k) / G.dr else e1 i k

/-- `e3` after lines 92-94 of src/poissonDirichlet.cpp -/
noncomputable def potentialEz (G : Geom) (fi e3 : ℕ → ℕ → ℝ) : ℕ → ℕ → ℝ :=
  fun i k => if i < G.nr ∧ k < G.nz - 1 then (fi i k - fi i (k + 1)) / G.dz else e3 i k

/-- Potential and electric field -/
structure PoissonOut where
  fi : ℕ → ℕ → ℝ
  er : ℕ → ℕ → ℝ
  ez : ℕ → ℕ → ℝ

/-- `PoissonDirichlet::poisson_solve`, src/poissonDirichlet.cpp:23-98, with the previous contents `o` of the
potential and the field -/
def PoissonSolve (P : ℝ) (G : Geom) (rho : ℕ → ℕ → ℝ) (o : PoissonOut) (res : Option PoissonOut) : Prop :=
  ∃ (s : (ℕ → ℝ) × (ℕ → ℝ)) (r1 : Option (ℕ → ℕ → ℝ)), RowsSine P G.nr G.nz false rho r1 ∧
    ((r1 = none ∧ res = none) ∨ ∃ t, r1 = some t ∧
      ((sweepAll P G t o.fi s = none ∧ res = none) ∨ ∃ f s', sweepAll P G t o.fi s = some (f, s') ∧
        ∃ r2, RowsSine P G.nr G.nz true f r2 ∧
          res = r2.map fun fi => ⟨fi, potentialEr G fi o.er, potentialEz G fi o.ez⟩))

/-- Cosine transform of all rows, src/poissonNeumann.cpp:47-50 -/
def RowsCos (P : ℝ) (nr n : ℕ) (inv : Bool) (a : ℕ → ℕ → ℝ) (res : Option (ℕ → ℕ → ℝ)) : Prop :=
  (∃ i < nr, CosTransform P n inv (a i) none ∧ res = none) ∨
  ∃ b : ℕ → ℕ → ℝ, (∀ i < nr, CosTransform P n inv (a i) (some (b i))) ∧ (∀ i, nr ≤ i → b i = a i) ∧ res = some b

/-- `PoissonNeumann::poisson_solve` up to the end of the first transform, src/poissonNeumann.cpp:21-50.  The rest is
not modelled (`PoissonProps.lean` shows that it is never reached). -/
def NeumannStart (P : ℝ) (G : Geom) (rho : ℕ → ℕ → ℝ) (res : Option (ℕ → ℕ → ℝ)) : Prop :=
  RowsCos P G.nr G.nz false rho res

end Verif
