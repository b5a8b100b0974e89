import Verif.PathConvergeCases
import Verif.GatherExact

/-!
# Fields that are samples of smooth fields (C17, C113)

How well the interpolation gives back a field that changes little around the particle, and the paths of macroparticles in fields whose values at the nodes of the
grid are known up to an error.
-/

namespace Verif

namespace PathGrid

theorem valHalf_near {G : Geom} (hG : G.Valid) {f : ℤ → ℤ → ℝ} {c ω zs r z : ℝ} (hr : G.dr / 2 ≤ r) (hz : zs * G.dz ≤ z)
    (h : ∀ i k : ℤ, |((i : ℝ) + 1 / 2) * G.dr - r| ≤ G.dr → |((k : ℝ) + zs) * G.dz - z| ≤ G.dz → |f i k - c| ≤ ω) :
    |valHalf G f zs r z - c| ≤ ω * weightHalf G r + |c| * (5 / 2 * (G.dr / r)) := by
  have e1 := C17_linear G (fun _ _ => 1) f (ω + c) (-1) zs r z
  have e2 := C17_linear G (fun _ _ => 1) f (ω - c) 1 zs r z
  have n1 := valHalf_nonneg hG (f := fun i k => (ω + c) * 1 + -1 * f i k) hr hz (fun i k a b => by linarith [(abs_le.1 (h i k a b)).2])
  have n2 := valHalf_nonneg hG (f := fun i k => (ω - c) * 1 + 1 * f i k) hr hz (fun i k a b => by linarith [(abs_le.1 (h i k a b)).1])
  rw [e1.1, valHalf_uniform hG] at n1
  rw [e2.1, valHalf_uniform hG] at n2
  have w := abs_le.1 (weightHalf_bound hG hr)
  have k : |c * weightHalf G r - c| ≤ |c| * (5 / 2 * (G.dr / r)) := by
    rw [show c * weightHalf G r - c = c * (weightHalf G r - 1) by ring, abs_mul]
    exact mul_le_mul_of_nonneg_left (abs_le.2 w) (abs_nonneg c)
  have k' := abs_le.1 k
  rw [abs_le]
  constructor <;> linarith [k'.1, k'.2]

theorem valInt_near {G : Geom} (hG : G.Valid) {f : ℤ → ℤ → ℝ} {c ω zs r z : ℝ} (hr : G.dr / 2 ≤ r) (hz : zs * G.dz ≤ z)
    (h : ∀ i k : ℤ, |(i : ℝ) * G.dr - r| ≤ G.dr → |((k : ℝ) + zs) * G.dz - z| ≤ G.dz → |f i k - c| ≤ ω) :
    |valInt G f zs r z - c| ≤ ω * weightInt G r + |c| * (5 / 2 * (G.dr / r)) := by
  have e1 := C17_linear G (fun _ _ => 1) f (ω + c) (-1) zs r z
  have e2 := C17_linear G (fun _ _ => 1) f (ω - c) 1 zs r z
  have n1 := valInt_nonneg hG (f := fun i k => (ω + c) * 1 + -1 * f i k) hr hz (fun i k a b => by linarith [(abs_le.1 (h i k a b)).2])
  have n2 := valInt_nonneg hG (f := fun i k => (ω - c) * 1 + 1 * f i k) hr hz (fun i k a b => by linarith [(abs_le.1 (h i k a b)).1])
  rw [e1.2, valInt_uniform hG] at n1
  rw [e2.2, valInt_uniform hG] at n2
  have w := abs_le.1 (weightInt_bound hG hr)
  have k : |c * weightInt G r - c| ≤ |c| * (5 / 2 * (G.dr / r)) := by
    rw [show c * weightInt G r - c = c * (weightInt G r - 1) by ring, abs_mul]
    exact mul_le_mul_of_nonneg_left (abs_le.2 w) (abs_nonneg c)
  have k' := abs_le.1 k
  rw [abs_le]
  constructor <;> linarith [k'.1, k'.2]

theorem six {G : Geom} (hG : G.Valid) {r : ℝ} (hr : G.dr / 2 ≤ r) : weightHalf G r ≤ 6 ∧ weightInt G r ≤ 6 := by
  have dr := hG.dr_pos
  have k : 5 / 2 * (G.dr / r) ≤ 5 := by
    have : G.dr / r ≤ 2 := by rw [div_le_iff₀ (by linarith)]; linarith
    linarith
  have h1 := (abs_le.1 (weightHalf_bound hG hr)).2
  have h2 := (abs_le.1 (weightInt_bound hG hr)).2
  constructor <;> linarith

/-- the field values of the model: near a common value at the nodes around the particle, near it at the particle -/
theorem val_near {G : Geom} (hG : G.Valid) {F : Fields} {c : Arr → ℝ} {ω r z : ℝ} (hω : 0 ≤ ω) (hp : InRegion G r z)
    (h : ∀ a ∈ [Arr.er, .ephi, .ez, .hrh, .hphih, .hzh], ∀ i k, |nodeR G a i - r| ≤ G.dr → |nodeZ G a k - z| ≤ G.dz → |F a i k - c a| ≤ ω) :
    |(valE G F r z).c0 - c .er| ≤ 6 * ω + |c .er| * (5 / 2 * (G.dr / r)) ∧
    |(valE G F r z).c1 - c .ephi| ≤ 6 * ω + |c .ephi| * (5 / 2 * (G.dr / r)) ∧
    |(valE G F r z).c2 - c .ez| ≤ 6 * ω + |c .ez| * (5 / 2 * (G.dr / r)) ∧
    |(valH G F r z).c0 - c .hrh| ≤ 6 * ω + |c .hrh| * (5 / 2 * (G.dr / r)) ∧
    |(valH G F r z).c1 - c .hphih| ≤ 6 * ω + |c .hphih| * (5 / 2 * (G.dr / r)) ∧
    |(valH G F r z).c2 - c .hzh| ≤ 6 * ω + |c .hzh| * (5 / 2 * (G.dr / r)) := by
  obtain ⟨p1, p2, p3, p4⟩ := hp
  have dz := hG.dz_pos
  have z0 : 0 * G.dz ≤ z := by linarith
  have z1 : 1 / 2 * G.dz ≤ z := by linarith
  obtain ⟨s1, s2⟩ := six hG p1
  have m1 := mul_le_mul_of_nonneg_left s1 hω
  have m2 := mul_le_mul_of_nonneg_left s2 hω
  refine ⟨?_, ?_, ?_, ?_, ?_, ?_⟩
  · refine (valHalf_near hG p1 z0 fun i k a b => h .er (by simp) i k a ?_).trans (by linarith)
    simpa [nodeZ] using b
  · refine (valInt_near hG p1 z0 fun i k a b => h .ephi (by simp) i k a ?_).trans (by linarith)
    simpa [nodeZ] using b
  · exact (valInt_near hG p1 z1 fun i k a b => h .ez (by simp) i k a b).trans (by linarith)
  · exact (valInt_near hG p1 z1 fun i k a b => h .hrh (by simp) i k a b).trans (by linarith)
  · exact (valHalf_near hG p1 z1 fun i k a b => h .hphih (by simp) i k a b).trans (by linarith)
  · refine (valHalf_near hG p1 z0 fun i k a b => h .hzh (by simp) i k a ?_).trans (by linarith)
    simpa [nodeZ] using b

end PathGrid

open PathGrid PathConverge

/-- **C17**, fields that are not uniform: if the values of a component at the nodes around a particle differ by at most `ω` from a value `c`, then the particle sees
`c` up to six times `ω` and the part `5/2 dr/r` of C17.  For samples of a smooth field `ω` is of the size of the cells. -/
theorem C17_smooth_partial (G : Geom) (hG : G.Valid) (hnr : 3 ≤ G.nr) (hnz : 3 ≤ G.nz) (num : ℕ → ℕ) (m : Mem PLoc)
    (hm : ∀ l : Loc, Init G l → (m (.fld l)).isSome) (r z : ℝ) (hp : InRegion G r z) (c : Arr → ℝ) (ω : ℝ) (hω : 0 ≤ ω)
    (near : ∀ l : Loc, |nodeR G l.arr l.i - r| ≤ G.dr → |nodeZ G l.arr l.k - z| ≤ G.dz → ∃ v, m (.fld l) = some v ∧ |v - c l.arr| ≤ ω) :
    ∃ e h, (getE G r z).eval (PAlloc G num) m = some (e, m) ∧ (getH G r z).eval (PAlloc G num) m = some (h, m) ∧
      ∀ a v, compOf e h a = some v → |v - c a| ≤ 6 * ω + |c a| * (5 / 2 * (G.dr / r)) := by
  have hR : PRep G (fun a i k => (m (.fld ⟨a, i, k⟩)).getD 0) m := by
    rintro ⟨a, i, k⟩ hl
    obtain ⟨v, hv⟩ := Option.isSome_iff_exists.1 (hm _ hl)
    simp only [Fields.at, hv, Option.getD_some]
  obtain ⟨h1, h2⟩ := gather_eval hG hnr hnz (num := num) hR hp
  refine ⟨_, _, h1, h2, ?_⟩
  obtain ⟨k1, k2, k3, k4, k5, k6⟩ := val_near hG (F := fun a i k => (m (.fld ⟨a, i, k⟩)).getD 0) (c := c) hω hp (fun a _ i k x y => by
    obtain ⟨v, v1, v2⟩ := near ⟨a, i, k⟩ x y
    rw [v1]
    exact v2)
  intro a v hv
  cases a <;> simp only [compOf, Option.some.injEq, reduceCtorEq] at hv <;> subst hv <;> assumption

/-- Case for `C17_smooth_partial`: values that grow with the radius -/
example : (fineGeom 1).Valid ∧ 3 ≤ (fineGeom 1).nr ∧ 3 ≤ (fineGeom 1).nz ∧ InRegion (fineGeom 1) 1 2 ∧
    ∀ l : Loc, |nodeR (fineGeom 1) l.arr l.i - 1| ≤ (fineGeom 1).dr → ∃ v : ℝ, some (l.i : ℝ) = some v ∧ |v - 2| ≤ 1 := by
  have dr : (fineGeom 1).dr = 2 / 5 := by norm_num [fineGeom]
  have dz : (fineGeom 1).dz = 4 / 5 := by norm_num [fineGeom]
  refine ⟨fineGeom_valid le_rfl, by decide, by decide, ?_, ?_⟩
  · unfold InRegion
    rw [dr, dz, show (fineGeom 1).r_size = 2 from rfl, show (fineGeom 1).z_size = 4 from rfl]
    norm_num
  · intro l hl
    refine ⟨l.i, rfl, ?_⟩
    obtain ⟨a, i, k⟩ := l
    obtain ⟨a1, a2⟩ := abs_le.1 hl
    dsimp only at a1 a2 ⊢
    have up : (i : ℝ) < 4 := by
      cases a <;> simp only [nodeR, dr] at a2 <;> linarith
    have lo : (0 : ℝ) < i := by
      cases a <;> simp only [nodeR, dr] at a1 <;> linarith
    have u : i < 4 := by exact_mod_cast up
    have w : 0 < i := by exact_mod_cast lo
    have u' : (i : ℝ) ≤ 3 := by exact_mod_cast (by omega : i ≤ 3)
    have w' : (1 : ℝ) ≤ i := by exact_mod_cast (by omega : 1 ≤ i)
    rw [abs_le]; constructor <;> linarith

/-! ## Paths in sampled fields -/

/-- The values of the grid at the nodes inside a chamber of radius `R` and length `Z` are those of the fields `e`, `h` up to `ε`, and the components that lead out of
the r-z half plane vanish.  Each component has its own nodes (`nodeR`, `nodeZ`). -/
structure NodeField (G : Geom) (F : Fields) (R Z ε : ℝ) (e h : ℝ → ℝ → V3) : Prop where
  value : ∀ a i k v, 0 ≤ nodeR G a i → nodeR G a i ≤ R → 0 ≤ nodeZ G a k → nodeZ G a k ≤ Z →
    compOf (e (nodeR G a i) (nodeZ G a k)) (h (nodeR G a i) (nodeZ G a k)) a = some v → |F a i k - v| ≤ ε
  plane : ∀ i k, F .ephi i k = 0 ∧ F .hrh i k = 0 ∧ F .hzh i k = 0

namespace PathGrid

open PathConverge PushConverge RoundedPush

theorem gap_le_sum (u w : V3) : gap u w ≤ |u.c0 - w.c0| + |u.c1 - w.c1| + |u.c2 - w.c2| := by
  unfold gap V3.len V3.sq V3.add V3.smul
  dsimp only
  apply Real.sqrt_le_iff.2 ⟨by positivity, ?_⟩
  have a := sq_abs (u.c0 - w.c0)
  have b := sq_abs (u.c1 - w.c1)
  have c := sq_abs (u.c2 - w.c2)
  have x := mul_nonneg (abs_nonneg (u.c0 - w.c0)) (abs_nonneg (u.c1 - w.c1))
  have y := mul_nonneg (abs_nonneg (u.c0 - w.c0)) (abs_nonneg (u.c2 - w.c2))
  have z := mul_nonneg (abs_nonneg (u.c1 - w.c1)) (abs_nonneg (u.c2 - w.c2))
  nlinarith only [a, b, c, x, y, z]

theorem comp_gap1 (u w : V3) : |u.c1 - w.c1| ≤ gap u w := by
  obtain ⟨-, a, -⟩ := comp_le (u.add (w.smul (-1)))
  simp only [V3.add, V3.smul] at a
  rw [show u.c1 - w.c1 = u.c1 + w.c1 * -1 by ring]; exact a

theorem compOf_some {a : Arr} (ha : a ∈ [Arr.er, .ephi, .ez, .hrh, .hphih, .hzh]) (e h : V3) : ∃ v, compOf e h a = some v := by
  simp only [List.mem_cons, List.not_mem_nil, or_false] at ha
  rcases ha with rfl | rfl | rfl | rfl | rfl | rfl <;> exact ⟨_, rfl⟩

theorem compOf_gap {a : Arr} {e h e' h' : V3} {v v' s : ℝ} (h1 : gap e e' ≤ s) (h2 : gap h h' ≤ s) (hv : compOf e h a = some v)
    (hv' : compOf e' h' a = some v') : |v - v'| ≤ s := by
  obtain ⟨a0, a2⟩ := comp_gap e e'
  obtain ⟨b0, b2⟩ := comp_gap h h'
  have a1 := comp_gap1 e e'
  have b1 := comp_gap1 h h'
  cases a <;> simp only [compOf, Option.some.injEq, reduceCtorEq] at hv hv' <;> subst hv <;> subst hv' <;> linarith

theorem grid_of_nodes {G : Geom} (hG : G.Valid) {F : Fields} {T B L ε ρ x y t : ℝ} {e h : ℝ → ℝ → ℝ → V3} (hL : 0 ≤ L) (hρ : 0 < ρ) (hε : 0 ≤ ε)
    (t0 : 0 ≤ t) (t1 : t ≤ T) (hF : SmoothFields T G.r_size G.z_size B L e h)
    (hE : ∀ t r z, 0 ≤ t → t ≤ T → 0 ≤ r → r ≤ G.r_size → 0 ≤ z → z ≤ G.z_size → (e t r z).len ≤ B)
    (hN : NodeField G F G.r_size G.z_size ε (e t) (h t)) (hdr : G.dr ≤ ρ / 4) (hdz : G.dz ≤ ρ / 4)
    (x0 : ρ ≤ x) (x1 : x ≤ G.r_size - ρ) (y0 : ρ ≤ y) (y1 : y ≤ G.z_size - ρ) :
    GridField G F x y (ρ / 4) ((18 + 18 * L + 15 * B / ρ) * (ε + G.dr + G.dz)) (e t) (h t) := by
  intro r z hr hz
  have dr := hG.dr_pos
  have dz := hG.dz_pos
  obtain ⟨r0, r1⟩ := abs_le.1 hr
  obtain ⟨z0, z1⟩ := abs_le.1 hz
  have reg : InRegion G r z := ⟨by linarith, by linarith, by linarith, by linarith⟩
  have ein := hE t r z t0 t1 (by linarith) (by linarith) (by linarith) (by linarith)
  have hin := hF.bound t r z t0 t1 (by linarith) (by linarith) (by linarith) (by linarith)
  have B0 : 0 ≤ B := (len_nonneg _).trans ein
  obtain ⟨k1, k2, k3, k4, k5, k6⟩ := val_near hG (F := F) (c := fun a => (compOf (e t r z) (h t r z) a).getD 0) (ω := ε + L * (G.dr + G.dz)) (by positivity) reg
    (by
      intro a ha i k hi hk
      obtain ⟨i0, i1⟩ := abs_le.1 hi
      obtain ⟨j0, j1⟩ := abs_le.1 hk
      obtain ⟨v, hv⟩ := compOf_some ha (e t r z) (h t r z)
      obtain ⟨v', hv'⟩ := compOf_some ha (e t (nodeR G a i) (nodeZ G a k)) (h t (nodeR G a i) (nodeZ G a k))
      have n1 := hN.value a i k v' (by linarith) (by linarith) (by linarith) (by linarith) hv'
      have s : L * (|nodeR G a i - r| + |nodeZ G a k - z|) ≤ L * (G.dr + G.dz) := mul_le_mul_of_nonneg_left (by linarith) hL
      have n2 := compOf_gap ((hF.electric t (nodeR G a i) (nodeZ G a k) r z t0 t1 (by linarith) (by linarith) (by linarith) (by linarith) (by linarith)
          (by linarith) (by linarith) (by linarith)).trans s) ((hF.magnetic t (nodeR G a i) (nodeZ G a k) r z t0 t1 (by linarith) (by linarith) (by linarith)
          (by linarith) (by linarith) (by linarith) (by linarith) (by linarith)).trans s) hv' hv
      rw [hv, Option.getD_some, show F a i k - v = (F a i k - v') + (v' - v) by ring]
      exact (abs_add_le _ _).trans (add_le_add n1 n2))
  simp only [compOf, Option.getD_some] at k1 k2 k3 k4 k5 k6
  have q : G.dr / r ≤ 2 * G.dr / ρ := by
    rw [div_le_div_iff₀ (by linarith) hρ]
    have : ρ / 2 ≤ r := by linarith
    nlinarith
  have q0 : 0 ≤ G.dr / r := by have : 0 < r := by linarith
                               positivity
  have part : ∀ c : ℝ, |c| ≤ B → |c| * (5 / 2 * (G.dr / r)) ≤ 5 * B / ρ * G.dr := by
    intro c hc
    refine (mul_le_mul hc (by linarith : 5 / 2 * (G.dr / r) ≤ 5 / 2 * (2 * G.dr / ρ)) (by positivity) B0).trans (le_of_eq ?_)
    ring
  obtain ⟨ce0, ce1, ce2⟩ := comp_le (e t r z)
  obtain ⟨ch0, ch1, ch2⟩ := comp_le (h t r z)
  have p1 := part _ (ce0.trans ein)
  have p2 := part _ (ce1.trans ein)
  have p3 := part _ (ce2.trans ein)
  have p4 := part _ (ch0.trans hin)
  have p5 := part _ (ch1.trans hin)
  have p6 := part _ (ch2.trans hin)
  have fin : 3 * (6 * (ε + L * (G.dr + G.dz)) + 5 * B / ρ * G.dr) ≤ (18 + 18 * L + 15 * B / ρ) * (ε + G.dr + G.dz) := by
    have b0 : 0 ≤ B / ρ := by positivity
    have m1 : 0 ≤ B / ρ * ε := by positivity
    have m2 : 0 ≤ B / ρ * G.dz := by positivity
    have m3 : 0 ≤ L * ε := by positivity
    have r1 : 5 * B / ρ * G.dr = 5 * (B / ρ * G.dr) := by ring
    have r2 : (18 + 18 * L + 15 * B / ρ) * (ε + G.dr + G.dz) = 18 * (ε + G.dr + G.dz) + 18 * (L * ε) + 18 * (L * (G.dr + G.dz)) +
      15 * (B / ρ * ε) + 15 * (B / ρ * G.dr) + 15 * (B / ρ * G.dz) := by ring
    rw [r1, r2]
    linarith only [m1, m2, m3, dr, dz]
  refine ⟨?_, ?_, ?_, ?_, ?_⟩
  · refine (gap_le_sum _ _).trans (le_trans ?_ fin)
    linarith only [k1, k2, k3, p1, p2, p3]
  · refine (gap_le_sum _ _).trans (le_trans ?_ fin)
    linarith only [k4, k5, k6, p4, p5, p6]
  · simp [valE, valHalf, valInt, val4, hN.plane]
  · simp [valH, valHalf, valInt, val4, hN.plane]
  · simp [valH, valHalf, valInt, val4, hN.plane]

end PathGrid

open PathConverge PushConverge RoundedPush

/-- **C113**, from the values at the nodes: if the fields at the nodes of the grid are those of a chamber up to `ε` at the middle of each step, then the macroparticle
follows the path of the charge up to a constant times the error of the start, `dt ^ 2`, the size of the cells and `ε`.  The path is at least `ρ` away from the axis and
the walls.

The full statement has no condition on the direction of the motion, the start, the pusher and the velocities, see `C113_path_partial`, and the second order in the size of the
cells. -/
theorem C113_sampled_partial (mode : PusherMode) (hmode : mode ≠ .vay) (rel : Bool) (q m T R Z B L ρ : ℝ) (hm : m ≠ 0) (hT : 0 ≤ T) (hL : 0 ≤ L)
    (hρ : 0 < ρ) (e h : ℝ → ℝ → ℝ → V3) (r z : ℝ → ℝ) (U : ℝ → V3) (hP : LorentzPath rel q m T e h r z U) (hF : SmoothFields T R Z B L e h)
    (hE : ∀ t r z, 0 ≤ t → t ≤ T → 0 ≤ r → r ≤ R → 0 ≤ z → z ≤ Z → (e t r z).len ≤ B)
    (inside : ∀ t, 0 ≤ t → t ≤ T → ρ ≤ r t ∧ r t ≤ R - ρ ∧ ρ ≤ z t ∧ z t ≤ Z - ρ) :
    ∃ C d : ℝ, 0 < C ∧ 0 < d ∧ ∀ (bunch : Bool) (G : Geom) (dt ε : ℝ) (N : ℕ) (F : ℕ → Fields) (g : ℕ → Bool) (p : Particle),
      G.Valid → G.r_size = R → G.z_size = Z → 0 < dt → dt ≤ d → (N + 1 / 2) * dt ≤ T → 0 ≤ ε →
      (∀ n < N, NodeField G (F n) R Z ε (e ((n + 1 / 2) * dt)) (h ((n + 1 / 2) * dt))) →
      p.alive = true → p.charge = q → p.mass = m → p.pos.c1 = 0 → p.vel.c1 = 0 → (rel = true → speedSq p.vel < LIGHT_SPEED ^ 2) →
      (∀ n < N, ∀ p', cycles bunch G mode dt F g n p = some p' → AboveThreshold p'.vel ∧ isRelativistic mode (g n) p'.vel = rel) →
      let error := C * (gap (momentum rel p.vel) (U 0) + (|p.pos.c0 - r (dt / 2)| + |p.pos.c2 - z (dt / 2)|) + dt ^ 2 + (G.dr + G.dz) + ε)
      error ≤ ρ / 4 →
      ∃ p', cycles bunch G mode dt F g N p = some p' ∧ InRegion G p'.pos.c0 p'.pos.c2 ∧ gap p'.vel (velocityAt rel (U (N * dt))) ≤ error ∧
        |p'.pos.c0 - r ((N + 1 / 2) * dt)| ≤ error ∧ |p'.pos.c2 - z ((N + 1 / 2) * dt)| ≤ error := by
  obtain ⟨i1, i2, i3, i4⟩ := inside 0 le_rfl hT
  have R0 : 0 ≤ R := by linarith
  have Z0 : 0 ≤ Z := by linarith
  obtain ⟨C, d, C0, d0, main⟩ := C113_path_partial mode hmode rel q m T R Z B L hm hT hL R0 Z0 e h r z U hP hF
  have B0 : 0 ≤ B := (len_nonneg _).trans (hF.bound 0 0 0 le_rfl hT le_rfl R0 le_rfl Z0)
  obtain ⟨K, hK⟩ : ∃ K, K = 18 + 18 * L + 15 * B / ρ := ⟨_, rfl⟩
  have K0 : 0 ≤ K := by rw [hK]; positivity
  refine ⟨C * (1 + K) + K * (ρ / 4) + 1, d, by positivity, d0, ?_⟩
  intro bunch G dt ε N F g p hG hGR hGZ dt0 dtd hN hε hF' alive hq hm' pos1 vel1 light run error small
  have dr := hG.dr_pos
  have dz := hG.dz_pos
  obtain ⟨s, hs⟩ : ∃ s, s = gap (momentum rel p.vel) (U 0) + (|p.pos.c0 - r (dt / 2)| + |p.pos.c2 - z (dt / 2)|) + dt ^ 2 := ⟨_, rfl⟩
  have s0 : 0 ≤ s := by
    have := gap_nonneg (momentum rel p.vel) (U 0)
    rw [hs]; positivity
  obtain ⟨w, hw⟩ : ∃ w, w = ε + G.dr + G.dz := ⟨_, rfl⟩
  have w0 : 0 ≤ w := by rw [hw]; linarith
  have he : error = (C * (1 + K) + K * (ρ / 4) + 1) * (s + w) := by
    show (C * (1 + K) + K * (ρ / 4) + 1) * (_ + (G.dr + G.dz) + ε) = _
    rw [← hs, hw]; ring
  clear_value error
  have t1 : 0 ≤ C * (1 + K) * (s + w) := by positivity
  have t2 : 0 ≤ K * (ρ / 4) * (s + w) := by positivity
  have t3 : error = C * (1 + K) * (s + w) + K * (ρ / 4) * (s + w) + (s + w) := by rw [he]; ring
  have wle : w ≤ ρ / 4 := by linarith
  have η1 : K * w ≤ 1 := by
    have : K * (ρ / 4) * (s + w) = ρ / 4 * (K * w) + ρ / 4 * (K * s) := by ring
    have h1 : 0 ≤ ρ / 4 * (K * s) := by positivity
    have h2 : ρ / 4 * (K * w) ≤ ρ / 4 * 1 := by linarith
    exact le_of_mul_le_mul_left h2 (by positivity)
  have cmp : C * (s + K * w) ≤ error := by
    have : C * (1 + K) * (s + w) = C * (s + K * w) + (C * w + C * (K * s)) := by ring
    have h1 : 0 ≤ C * w + C * (K * s) := by positivity
    linarith
  have res := main bunch G dt (ρ / 4) (K * w) N F g p hG hGR hGZ dt0 dtd hN (by positivity) η1 (by
      intro n hn
      have n0 : 0 ≤ ((n : ℝ) + 1 / 2) * dt := by positivity
      have n1 : ((n : ℝ) + 1 / 2) * dt ≤ T := by
        have : (n : ℝ) ≤ N := by exact_mod_cast hn.le
        exact (mul_le_mul_of_nonneg_right (by linarith) dt0.le).trans hN
      obtain ⟨j1, j2, j3, j4⟩ := inside _ n0 n1
      subst hGR hGZ
      rw [hK, hw]
      exact grid_of_nodes hG hL hρ hε n0 n1 hF hE (hF' n hn) (by linarith) (by linarith) j1 j2 j3 j4)
    (by
      intro t t0 t1
      obtain ⟨j1, j2, j3, j4⟩ := inside t t0 t1
      exact ⟨by linarith, by linarith, by linarith, by linarith⟩)
    alive hq hm' pos1 vel1 light run
  simp only [← hs] at res
  obtain ⟨p', r1, r2, r3, r4, r5⟩ := res (cmp.trans small)
  exact ⟨p', r1, r2, r3.trans cmp, r4.trans cmp, r5.trans cmp⟩

/-- Case for `C113_sampled_partial`: a charge in a uniform field along the axis, on a grid that is fine enough, for whatever constants -/
example (C d : ℝ) (hC : 0 < C) (hd : 0 < d) : LorentzPath false 1 1 1 (fun _ _ _ => ⟨0, 0, 1⟩) (fun _ _ _ => V3.zero) (fun _ => 1)
      (fun t => 1 + t + t ^ 2 / 2) (fun t => ⟨0, 0, 1 + t⟩) ∧ SmoothFields 1 2 4 1 0 (fun _ _ _ => ⟨0, 0, 1⟩) (fun _ _ _ => V3.zero) ∧
    (⟨0, 0, 1⟩ : V3).len ≤ 1 ∧
    (∀ t : ℝ, 0 ≤ t → t ≤ 1 → (1 : ℝ) ≤ 1 ∧ (1 : ℝ) ≤ 2 - 1 ∧ 1 ≤ 1 + t + t ^ 2 / 2 ∧ 1 + t + t ^ 2 / 2 ≤ 4 - 1) ∧
    ∃ (G : Geom) (dt : ℝ) (N : ℕ) (F : ℕ → Fields) (g : ℕ → Bool) (p : Particle), N * dt = 1 / 2 ∧
      G.Valid ∧ G.r_size = 2 ∧ G.z_size = 4 ∧ 0 < dt ∧ dt ≤ d ∧ (N + 1 / 2) * dt ≤ 1 ∧
      (∀ n < N, NodeField G (F n) 2 4 0 (fun _ _ => ⟨0, 0, 1⟩) (fun _ _ => V3.zero)) ∧
      p.alive = true ∧ p.charge = 1 ∧ p.mass = 1 ∧ p.pos.c1 = 0 ∧ p.vel.c1 = 0 ∧
      (∀ n < N, ∀ p', cycles false G .borisClassic dt F g n p = some p' → AboveThreshold p'.vel ∧ isRelativistic .borisClassic (g n) p'.vel = false) ∧
      C * (gap (momentum false p.vel) ⟨0, 0, 1 + 0⟩ + (|p.pos.c0 - 1| + |p.pos.c2 - (1 + dt / 2 + (dt / 2) ^ 2 / 2)|) + dt ^ 2 + (G.dr + G.dz) + 0) ≤ 1 / 4 := by
  have zz : ∀ v : V3, gap v v = 0 := by
    intro v; unfold gap V3.len V3.sq V3.add V3.smul; simp
  refine ⟨axial_path, ⟨?_, ?_, ?_⟩, ?_, ?_, ?_⟩
  · intros; simp [V3.len, V3.sq, V3.zero]
  · intros; rw [zz]; simp
  · intros; rw [zz]; simp
  · simp [V3.len, V3.sq]
  · intro t t0 t1
    exact ⟨by norm_num, by norm_num, by nlinarith, by nlinarith⟩
  obtain ⟨k, hk⟩ := exists_nat_gt (16 * C + 1 / d + 4)
  have hd' : 0 < 1 / d := by positivity
  have k4 : (4 : ℝ) < k := by linarith
  have k0 : (0 : ℝ) < k := by linarith
  have k1 : 1 ≤ k := by exact_mod_cast (by linarith : (1 : ℝ) ≤ k)
  have hG := fineGeom_valid k1
  obtain ⟨dt, hdt⟩ : ∃ dt : ℝ, dt = 1 / (2 * k) := ⟨_, rfl⟩
  have dt0 : 0 < dt := by rw [hdt]; positivity
  have dtk : dt * k = 1 / 2 := by rw [hdt]; field_simp
  have dt8 : dt ≤ 1 / 8 := by nlinarith
  have dtd : dt ≤ d := by
    have : 1 / d < k := by linarith
    rw [div_lt_iff₀ hd] at this
    nlinarith
  have w := weight_near k1 (r := 1) (by norm_num)
  have wk : 4 / 3 / (k : ℝ) ≤ 1 / 3 := by rw [div_le_iff₀ k0]; linarith
  have w' := abs_le.1 w
  have run := fun n hn => axial_run k1 (c := 1) (dt := dt) (z := 1 + dt / 2 + (dt / 2) ^ 2 / 2) (a := weightInt (fineGeom k) 1) (by nlinarith)
    (by nlinarith) dt0 (by linarith) (by ring) (by linarith [w'.1]) (by linarith [w'.2]) false (fun _ => false) n hn
  refine ⟨fineGeom k, dt, k, fun _ => axialField 1, fun _ => false, axialParticle (1 + dt / 2 + (dt / 2) ^ 2 / 2), by linarith,
    hG, rfl, rfl, dt0, dtd, by linarith, ?_, rfl, rfl, rfl, rfl, rfl, ?_, ?_⟩
  · intro n _
    refine ⟨?_, fun _ _ => ⟨rfl, rfl, rfl⟩⟩
    intro a i j v _ _ _ _ hv
    cases a <;> simp only [compOf, Option.some.injEq, reduceCtorEq, V3.zero] at hv <;> subst hv <;> simp [axialField]
  · intro n hn p' hp'
    have : (n : ℝ) * dt ≤ 1 / 2 := by
      have : (n : ℝ) ≤ k := by exact_mod_cast hn.le
      nlinarith
    obtain ⟨p, i1, -, -, -, i5, -⟩ := run n this
    rw [i1] at hp'
    obtain rfl : p = p' := by simpa using hp'
    refine ⟨?_, rfl⟩
    rw [i5]
    refine ⟨Or.inl rfl, Or.inl rfl, Or.inr ?_⟩
    dsimp only
    have : 0 ≤ n * dt * weightInt (fineGeom k) 1 := by
      have := w'.1
      have : 0 ≤ weightInt (fineGeom k) 1 := by linarith
      positivity
    rw [abs_of_nonneg (by linarith)]
    have : MNZL ≤ 1 := by unfold MNZL; norm_num
    linarith
  · have e1 : momentum false (axialParticle (1 + dt / 2 + (dt / 2) ^ 2 / 2)).vel = ⟨0, 0, 1 + 0⟩ := by simp [momentum, axialParticle]
    rw [e1, zz]
    simp only [axialParticle, sub_self, abs_zero, add_zero, zero_add]
    have cd : C * dt ≤ 1 / 32 := by nlinarith
    have e2 : (fineGeom k).dr + (fineGeom k).dz = 12 / 5 * dt := by
      show (2 : ℝ) / (5 * k) + 4 / (5 * k) = _
      rw [hdt]; field_simp; norm_num
    rw [e2]
    nlinarith

end Verif
