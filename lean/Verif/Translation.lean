import Verif.CausalityProps

/-!
# The place along the axis and the length of the chamber (C115): specification and the parts of the cycle

A simulation in one chamber, seen through a window, and the same content some whole cells further along the axis of a chamber of
another length.
-/

namespace Verif

/-! ## Specification -/

/-- Two chambers that differ at most in their length: the same radius and the same cells -/
structure SameSection (G G' : Geom) : Prop where
  r_size : G'.r_size = G.r_size
  nr : G'.nr = G.nr
  dr : G'.dr = G.dr
  dz : G'.dz = G.dz

/-- a window moved by `d` cells along the axis -/
def Patch.along (W : Patch) (d : ℤ) : Patch := ⟨W.i0, W.i1, W.k0 + d, W.k1 + d⟩

/-- Where the window in the first chamber meets an end wall, the window `d` cells further in the second meets the same wall at the
same place; other end walls are outside both windows. -/
structure Patch.Fits (W : Patch) (G G' : Geom) (d : ℤ) : Prop where
  near : d = 0 ∨ (1 ≤ W.k0 ∧ 1 ≤ W.k0 + d)
  far : (G'.nz : ℤ) = G.nz + d ∨ (W.k1 + 2 ≤ G.nz ∧ W.k1 + d + 2 ≤ G'.nz)

/-- a macroparticle moved by `s` along the axis -/
noncomputable def Particle.along (p : Particle) (s : ℝ) : Particle :=
  { p with pos := ⟨p.pos.c0, p.pos.c1, p.pos.c2 + s⟩, posOld := ⟨p.posOld.c0, p.posOld.c1, p.posOld.c2 + s⟩ }

/-- What the first simulation has inside the window, the second has `d` cells further along the axis: the same values of all
field components and currents, and the same macroparticles. -/
structure SameShifted (G G' : Geom) (d : ℤ) (W : Patch) (m : Mem Loc) (S : List Species) (M : Mem Loc) (T : List Species) :
    Prop where
  mem : ∀ a i k, Init G ⟨a, i, k⟩ → W.Node i k → m ⟨a, i, k⟩ = M ⟨a, i, k + d⟩
  parts : List.Forall₂ (fun x y => x.1 = y.1 ∧ SamePart (x.2.along (d * G.dz)) y.2) (W.seen G S) ((W.along d).seen G' T)

/-! ## Fields -/

/-- the fields seen from a place `d` cells along the axis -/
def Fields.along (F : Fields) (d : ℤ) : Fields := fun a i k => F a i (k + d)

theorem Patch.along_inner (W : Patch) (d : ℤ) (n : ℕ) : (W.along d).inner n = (W.inner n).along d := by
  unfold Patch.along Patch.inner
  simp only [Patch.mk.injEq, true_and]
  constructor <;> ring

namespace Translate

theorem hStep_along {G G' : Geom} (h : SameSection G G') (dt : ℝ) (F : Fields) (d : ℤ) (a : Arr) (i k : ℤ)
    (h1 : d = 0 ∨ (0 ≤ k ∧ 0 ≤ k + d)) (h2 : (G'.nz : ℤ) = G.nz + d ∨ (k + 2 ≤ G.nz ∧ k + d + 2 ≤ G'.nz)) :
    hStep G' dt F a i (k + d) = hStep G dt (F.along d) a i k := by
  have e : k + d + 1 = k + 1 + d := by ring
  have b : ∀ u v : ℤ, Box u v 0 (G'.nz - 1) i (k + d) ↔ Box u v 0 (G.nz - 1) i k := by
    intro u v; unfold Box; omega
  cases a <;> simp only [hStep, alphaR, alphaPhi, alphaZ, Fields.along, h.nr, h.dr, h.dz, e, b]

theorem eStep_along {G G' : Geom} (h : SameSection G G') (dt : ℝ) (F : Fields) (d : ℤ) (a : Arr) (i k : ℤ)
    (h1 : d = 0 ∨ (1 ≤ k ∧ 1 ≤ k + d)) (h2 : (G'.nz : ℤ) = G.nz + d ∨ (k + 2 ≤ G.nz ∧ k + d + 2 ≤ G'.nz)) :
    eStep G' dt F a i (k + d) = eStep G dt (F.along d) a i k := by
  have e : k + d - 1 = k - 1 + d := by ring
  have b : ∀ u v : ℤ, Box u v 0 (G'.nz - 1) i (k + d) ↔ Box u v 0 (G.nz - 1) i k := by
    intro u v; unfold Box; omega
  have b' : ∀ u v : ℤ, Box u v 1 (G'.nz - 1) i (k + d) ↔ Box u v 1 (G.nz - 1) i k := by
    intro u v; unfold Box; omega
  cases a <;> simp only [eStep, newEr, newEphi, newEz, newEz0, kE, kH, Fields.along, h.nr, h.dr, h.dz, e, b, b']

/-! ## Cells -/

theorem cell_along {x dx : ℝ} (hdx : 0 < dx) (e : ℤ) (h : e = 0 ∨ (0 < x ∧ 0 < x + e * dx)) :
    clamp0 (CELL_NUMBER (x + e * dx) dx) = clamp0 (CELL_NUMBER x dx) + e := by
  rcases h with rfl | ⟨h1, h2⟩
  · simp
  have h : CELL_NUMBER (x + e * dx) dx = CELL_NUMBER x dx + e := by
    unfold CELL_NUMBER
    rw [add_div, mul_div_cancel_right₀ _ hdx.ne', Int.ceil_add_intCast]
    ring
  have pos : ∀ {y : ℝ}, 0 < y → 0 ≤ CELL_NUMBER y dx := by
    intro y hy
    unfold CELL_NUMBER
    have : 0 < ⌈y / dx⌉ := Int.ceil_pos.2 (div_pos hy hdx)
    omega
  have a1 := pos h1
  have a2 := pos h2
  rw [h] at a2 ⊢
  unfold clamp0
  rw [if_neg (by omega), if_neg (by omega)]

theorem valHalf_along {G G' : Geom} (hG : G.Valid) (h : SameSection G G') (f : ℤ → ℤ → ℝ) (d : ℤ) {zs r z : ℝ}
    (hd : d = 0 ∨ (0 < z - zs * G.dz ∧ 0 < z - zs * G.dz + d * G.dz)) :
    valHalf G' f zs r (z + d * G.dz) = valHalf G (fun i k => f i (k + d)) zs r z := by
  unfold valHalf
  dsimp only
  rw [h.dr, h.dz, show z + d * G.dz - zs * G.dz = z - zs * G.dz + d * G.dz by ring, cell_along hG.dz_pos d hd]
  generalize clamp0 (CELL_NUMBER (z - zs * G.dz) G.dz) = k
  unfold val4
  rw [show k + d + 1 = k + 1 + d by ring]
  push_cast
  rw [show ((k:ℝ) + d + 1 + zs) * G.dz - (z + d * G.dz) = ((k:ℝ) + 1 + zs) * G.dz - z by ring,
    show z + d * G.dz - ((k:ℝ) + d + zs) * G.dz = z - ((k:ℝ) + zs) * G.dz by ring]

theorem valInt_along {G G' : Geom} (hG : G.Valid) (h : SameSection G G') (f : ℤ → ℤ → ℝ) (d : ℤ) {zs r z : ℝ}
    (hd : d = 0 ∨ (0 < z - zs * G.dz ∧ 0 < z - zs * G.dz + d * G.dz)) :
    valInt G' f zs r (z + d * G.dz) = valInt G (fun i k => f i (k + d)) zs r z := by
  unfold valInt
  dsimp only
  rw [h.dr, h.dz, show z + d * G.dz - zs * G.dz = z - zs * G.dz + d * G.dz by ring, cell_along hG.dz_pos d hd]
  generalize clamp0 (CELL_NUMBER (z - zs * G.dz) G.dz) = k
  unfold val4
  rw [show k + d + 1 = k + 1 + d by ring]
  push_cast
  rw [show ((k:ℝ) + d + 1 + zs) * G.dz - (z + d * G.dz) = ((k:ℝ) + 1 + zs) * G.dz - z by ring,
    show z + d * G.dz - ((k:ℝ) + d + zs) * G.dz = z - ((k:ℝ) + zs) * G.dz by ring]

theorem val_along {G G' : Geom} (hG : G.Valid) (h : SameSection G G') (F : Fields) (d : ℤ) {r z : ℝ}
    (hd : d = 0 ∨ (G.dz ≤ z ∧ G.dz ≤ z + d * G.dz)) : valE G' F r (z + d * G.dz) = valE G (F.along d) r z ∧
      valH G' F r (z + d * G.dz) = valH G (F.along d) r z := by
  have dz := hG.dz_pos
  have k0 : d = 0 ∨ (0 < z - 0 * G.dz ∧ 0 < z - 0 * G.dz + d * G.dz) :=
    hd.imp_right fun h => ⟨by linarith [h.1], by linarith [h.2]⟩
  have k1 : d = 0 ∨ (0 < z - 1 / 2 * G.dz ∧ 0 < z - 1 / 2 * G.dz + d * G.dz) :=
    hd.imp_right fun h => ⟨by linarith [h.1], by linarith [h.2]⟩
  unfold valE valH Fields.along
  exact ⟨by rw [valHalf_along hG h _ d k0, valInt_along hG h _ d k0, valInt_along hG h _ d k1],
    by rw [valInt_along hG h _ d k1, valHalf_along hG h _ d k1, valHalf_along hG h _ d k0]⟩

/-! ## Deposition -/

/-- an increment moved by `d` cells -/
def inc (d : ℤ) (c : Inc) : Inc := ⟨c.i, c.k + d, c.v⟩

/-- the increments of a routine moved by `d` cells -/
def incs (d : ℤ) (J : JIncs) : JIncs := ⟨J.jr.map (inc d), J.jz.map (inc d)⟩

/-- an increment call moved by `d` cells -/
def call (d : ℤ) (c : JCall) : JCall := ⟨c.arr, c.i, c.k + d, c.v⟩

theorem incs_empty (d : ℤ) : incs d JIncs.empty = JIncs.empty := rfl

theorem seq_along (d : ℤ) (a b : Option JIncs) : (seqJ a b).map (incs d) = seqJ (a.map (incs d)) (b.map (incs d)) := by
  cases a <;> cases b <;> simp [seqJ, incs, JIncs.append]

theorem callsOf_along (a : Arr) (d : ℤ) (l : List Inc) : callsOf a (l.map (inc d)) = (callsOf a l).map (call d) := by
  unfold callsOf
  rw [List.map_map, List.map_map]
  rfl

theorem azimuthal_along {G G' : Geom} (hG : G.Valid) (h : SameSection G G') (q v r : ℝ) (d : ℤ) {z : ℝ}
    (hd : d = 0 ∨ (0 < z ∧ 0 < z + d * G.dz)) :
    azimuthalIncs G' q v r (z + d * G.dz) = (azimuthalIncs G q v r z).map (List.map (inc d)) := by
  unfold azimuthalIncs
  dsimp only
  rw [h.dr, h.dz, cell_along hG.dz_pos d hd]
  generalize clamp0 (CELL_NUMBER z G.dz) = k
  push_cast
  rw [show k + d + 1 = k + 1 + d by ring,
    show ((k:ℝ) + d + 0.5) * G.dz - (z + d * G.dz - 0.5 * G.dz) = ((k:ℝ) + 0.5) * G.dz - (z - 0.5 * G.dz) by ring,
    show z + d * G.dz + 0.5 * G.dz - ((k:ℝ) + d + 0.5) * G.dz = z + 0.5 * G.dz - ((k:ℝ) + 0.5) * G.dz by ring]
  split_ifs <;> rfl

theorem simple_along {G G' : Geom} (h : SameSection G G') (dt q rN zN rO zO : ℝ) (i k d : ℤ) :
    simpleCurrent G' dt q rN (zN + d * G.dz) rO (zO + d * G.dz) i (k + d) =
      (simpleCurrent G dt q rN zN rO zO i k).map (incs d) := by
  unfold simpleCurrent
  dsimp only
  push_cast
  rw [h.dr, h.dz, show k + d + 1 = k + 1 + d by ring, show zN + d * G.dz - (zO + d * G.dz) = zN - zO by ring,
    show ((k:ℝ) + d + 1) * G.dz - (zO + d * G.dz) = ((k:ℝ) + 1) * G.dz - zO by ring,
    show zO + d * G.dz - ((k:ℝ) + d) * G.dz = zO - (k:ℝ) * G.dz by ring]
  split_ifs <;> rfl

theorem strict_along {G G' : Geom} (hG : G.Valid) (h : SameSection G G') (dt q rN rO : ℝ) (d : ℤ) {zN zO : ℝ}
    (h1 : d = 0 ∨ (0 < zN ∧ 0 < zN + d * G.dz)) (h2 : d = 0 ∨ (0 < zO ∧ 0 < zO + d * G.dz)) :
    strictMotion G' dt q rN (zN + d * G.dz) rO (zO + d * G.dz) = (strictMotion G dt q rN zN rO zO).map (incs d) := by
  unfold strictMotion
  dsimp only
  rw [h.dr, h.dz, cell_along hG.dz_pos d h1, cell_along hG.dz_pos d h2]
  generalize clamp0 (CELL_NUMBER zN G.dz) = k
  generalize clamp0 (CELL_NUMBER zO G.dz) = j
  push_cast
  rw [show k + d + 1 = k + 1 + d by ring, show k + d - 1 = k - 1 + d by ring, show k + d - (j + d) = k - j by ring,
    show zN + d * G.dz - (zO + d * G.dz) = zN - zO by ring,
    show ((k:ℝ) + d) * G.dz - (zO + d * G.dz) = (k:ℝ) * G.dz - zO by ring,
    show zN + d * G.dz - ((k:ℝ) + d) * G.dz = zN - (k:ℝ) * G.dz by ring,
    show ((k:ℝ) + d + 1) * G.dz - (zO + d * G.dz) = ((k:ℝ) + 1) * G.dz - zO by ring,
    show zN + d * G.dz - ((k:ℝ) + d + 1) * G.dz = zN - ((k:ℝ) + 1) * G.dz by ring,
    show ((k:ℝ) + d + 1) * G.dz - (zN + d * G.dz) = ((k:ℝ) + 1) * G.dz - zN by ring]
  split_ifs <;> rfl

/-- the part of `currentOfMove` after the corrections of the cell numbers -/
noncomputable def afterCells (G : Geom) (delta_t q rN zN rO zO : ℝ) (i_n k_n i_o k_o : ℤ) : Option JIncs :=
  if |rN - rO| < MNZL ∨ |zN - zO| < MNZL then
    strictMotion G delta_t q rN zN rO zO
  else if |i_n - i_o| + |k_n - k_o| = 0 then
    simpleCurrent G delta_t q rN zN rO zO i_n k_n
  else if |i_n - i_o| + |k_n - k_o| = 1 then
    if i_n ≠ i_o ∧ k_n = k_o then
      if rO > ((i_n : ℝ) + 1) * G.dr then
        seqJ (simpleCurrent G delta_t q (((i_n : ℝ) + 1) * G.dr) (zN + (((i_n : ℝ) + 1) * G.dr - rN) / ((rO - rN) / (zO - zN)))
            rO zO (i_n + 1) k_n)
          (simpleCurrent G delta_t q rN zN (((i_n : ℝ) + 1) * G.dr)
            (zN + (((i_n : ℝ) + 1) * G.dr - rN) / ((rO - rN) / (zO - zN))) i_n k_n)
      else
        seqJ (simpleCurrent G delta_t q ((i_n : ℝ) * G.dr) (zO + ((i_n : ℝ) * G.dr - rO) / ((rN - rO) / (zN - zO)))
            rO zO (i_n - 1) k_n)
          (simpleCurrent G delta_t q rN zN ((i_n : ℝ) * G.dr)
            (zO + ((i_n : ℝ) * G.dr - rO) / ((rN - rO) / (zN - zO))) i_n k_n)
    else if i_n = i_o ∧ k_n ≠ k_o then
      if zO < (k_n : ℝ) * G.dz then
        seqJ (simpleCurrent G delta_t q (rO + (rN - rO) / (zN - zO) * ((k_n : ℝ) * G.dz - zO)) ((k_n : ℝ) * G.dz) rO zO i_n
            (k_n - 1))
          (simpleCurrent G delta_t q rN zN (rO + (rN - rO) / (zN - zO) * ((k_n : ℝ) * G.dz - zO)) ((k_n : ℝ) * G.dz) i_n k_n)
      else
        seqJ (simpleCurrent G delta_t q (rN + (rO - rN) / (zO - zN) * (((k_n : ℝ) + 1) * G.dz - zN)) (((k_n : ℝ) + 1) * G.dz)
            rO zO i_n (k_n + 1))
          (simpleCurrent G delta_t q rN zN (rN + (rO - rN) / (zO - zN) * (((k_n : ℝ) + 1) * G.dz - zN))
            (((k_n : ℝ) + 1) * G.dz) i_n k_n)
    else some JIncs.empty
  else if |i_n - i_o| + |k_n - k_o| = 2 then
    if i_o < i_n then
      if k_o < k_n then
        let r1 := (i_n : ℝ) * G.dr
        let z1 := zO + (r1 - rO) / ((rN - rO) / (zN - zO))
        let z2 := (k_n : ℝ) * G.dz
        let r2 := rO + (z2 - zO) * ((rN - rO) / (zN - zO))
        if z1 < (k_n : ℝ) * G.dz then
          seqJ (simpleCurrent G delta_t q r1 z1 rO zO (i_n - 1) (k_n - 1))
            (seqJ (simpleCurrent G delta_t q r2 z2 r1 z1 i_n (k_n - 1)) (simpleCurrent G delta_t q rN zN r2 z2 i_n k_n))
        else if z1 > (k_n : ℝ) * G.dz then
          seqJ (simpleCurrent G delta_t q r2 z2 rO zO (i_n - 1) (k_n - 1))
            (seqJ (simpleCurrent G delta_t q r1 z1 r2 z2 (i_n - 1) k_n) (simpleCurrent G delta_t q rN zN r1 z1 i_n k_n))
        else some JIncs.empty
      else
        let r1 := (i_n : ℝ) * G.dr
        let z1 := zO + (r1 - rO) / ((rN - rO) / (zN - zO))
        let z2 := ((k_n : ℝ) + 1) * G.dz
        let r2 := rO + -(zO - z2) * ((rN - rO) / (zN - zO))
        if z1 > ((k_n : ℝ) + 1) * G.dz then
          seqJ (simpleCurrent G delta_t q r1 z1 rO zO (i_n - 1) (k_n + 1))
            (seqJ (simpleCurrent G delta_t q r2 z2 r1 z1 i_n (k_n + 1)) (simpleCurrent G delta_t q rN zN r2 z2 i_n k_n))
        else if z1 < ((k_n : ℝ) + 1) * G.dz then
          seqJ (simpleCurrent G delta_t q r2 z2 rO zO (i_n - 1) (k_n + 1))
            (seqJ (simpleCurrent G delta_t q r1 z1 r2 z2 (i_n - 1) k_n) (simpleCurrent G delta_t q rN zN r1 z1 i_n k_n))
        else some JIncs.empty
    else if i_o > i_n then
      if k_o < k_n then
        let r1 := ((i_n : ℝ) + 1) * G.dr
        let z1 := zO + -(rO - r1) / ((rN - rO) / (zN - zO))
        let z2 := (k_n : ℝ) * G.dz
        let r2 := rO - -(z2 - zO) * ((rN - rO) / (zN - zO))
        if z1 < (k_n : ℝ) * G.dz then
          seqJ (simpleCurrent G delta_t q r1 z1 rO zO (i_n + 1) (k_n - 1))
            (seqJ (simpleCurrent G delta_t q r2 z2 r1 z1 i_n (k_n - 1)) (simpleCurrent G delta_t q rN zN r2 z2 i_n k_n))
        else if z1 > (k_n : ℝ) * G.dz then
          seqJ (simpleCurrent G delta_t q r2 z2 rO zO (i_n + 1) (k_n - 1))
            (seqJ (simpleCurrent G delta_t q r1 z1 r2 z2 (i_n + 1) k_n) (simpleCurrent G delta_t q rN zN r1 z1 i_n k_n))
        else some JIncs.empty
      else if k_o > k_n then
        let r1 := ((i_n : ℝ) + 1) * G.dr
        let z1 := zN + (r1 - rN) / ((rO - rN) / (zO - zN))
        let z2 := ((k_n : ℝ) + 1) * G.dz
        let r2 := rN + (z2 - zN) * ((rO - rN) / (zO - zN))
        if z1 > ((k_n : ℝ) + 1) * G.dz then
          seqJ (simpleCurrent G delta_t q r1 z1 rO zO (i_n + 1) (k_n + 1))
            (seqJ (simpleCurrent G delta_t q r2 z2 r1 z1 i_n (k_n + 1)) (simpleCurrent G delta_t q rN zN r2 z2 i_n k_n))
        else if z1 < ((k_n : ℝ) + 1) * G.dz then
          seqJ (simpleCurrent G delta_t q r2 z2 rO zO (i_n + 1) (k_n + 1))
            (seqJ (simpleCurrent G delta_t q r1 z1 r2 z2 (i_n + 1) k_n) (simpleCurrent G delta_t q rN zN r1 z1 i_n k_n))
        else some JIncs.empty
      else some JIncs.empty
    else some JIncs.empty
  else some JIncs.empty

theorem move_eq (G : Geom) (dt q rN zN rO zO : ℝ) : currentOfMove G dt q rN zN rO zO =
    (fun i_n k_n i_o k_o : ℤ => (fun i_o k_o : ℤ => afterCells G dt q rN zN rO zO (if rN = ((i_n : ℝ) + 1) * G.dr then i_o else i_n)
      (if zN = ((k_n : ℝ) + 1) * G.dz then k_o else k_n) i_o k_o) (if rO = ((i_o : ℝ) + 1) * G.dr then i_n else i_o)
      (if zO = ((k_o : ℝ) + 1) * G.dz then k_n else k_o))
    (clamp0 (CELL_NUMBER rN G.dr)) (clamp0 (CELL_NUMBER zN G.dz)) (clamp0 (CELL_NUMBER rO G.dr)) (clamp0 (CELL_NUMBER zO G.dz)) :=
  rfl

theorem after_along {G G' : Geom} (hG : G.Valid) (h : SameSection G G') (dt q rN rO : ℝ) (d i k j l : ℤ) {zN zO : ℝ}
    (h1 : d = 0 ∨ (0 < zN ∧ 0 < zN + d * G.dz)) (h2 : d = 0 ∨ (0 < zO ∧ 0 < zO + d * G.dz)) :
    afterCells G' dt q rN (zN + d * G.dz) rO (zO + d * G.dz) i (k + d) j (l + d) =
      (afterCells G dt q rN zN rO zO i k j l).map (incs d) := by
  unfold afterCells
  dsimp only
  rw [strict_along hG h dt q rN rO d h1 h2]
  push_cast
  have e1 : k + d - (l + d) = k - l := by ring
  have e2 : k + d + 1 = k + 1 + d := by ring
  have e3 : k + d - 1 = k - 1 + d := by ring
  have e4 : zN + d * G.dz - (zO + d * G.dz) = zN - zO := by ring
  have e5 : zO + d * G.dz - (zN + d * G.dz) = zO - zN := by ring
  have e6 : ∀ x, zN + d * G.dz + x = zN + x + d * G.dz := fun x => by ring
  have e7 : ∀ x, zO + d * G.dz + x = zO + x + d * G.dz := fun x => by ring
  have e8 : ((k:ℝ) + d) * G.dz = (k:ℝ) * G.dz + d * G.dz := by ring
  have e9 : ((k:ℝ) + d + 1) * G.dz = ((k:ℝ) + 1) * G.dz + d * G.dz := by ring
  rw [h.dr, h.dz]
  simp only [e1, e2, e3, e4, e5, e6, e7, e8, e9, add_sub_add_right_eq_sub, simple_along h, ← seq_along, add_lt_add_iff_right,
    gt_iff_lt, add_left_inj, ne_eq, apply_ite (Option.map (incs d)), Option.map_some, incs_empty]

theorem current_along {G G' : Geom} (hG : G.Valid) (h : SameSection G G') (dt q rN rO : ℝ) (d : ℤ) {zN zO : ℝ}
    (h1 : d = 0 ∨ (0 < zN ∧ 0 < zN + d * G.dz)) (h2 : d = 0 ∨ (0 < zO ∧ 0 < zO + d * G.dz)) :
    currentOfMove G' dt q rN (zN + d * G.dz) rO (zO + d * G.dz) = (currentOfMove G dt q rN zN rO zO).map (incs d) := by
  rw [move_eq, move_eq, h.dr, h.dz, cell_along hG.dz_pos d h1, cell_along hG.dz_pos d h2]
  dsimp only
  rw [← after_along hG h dt q rN rO d _ _ _ _ h1 h2]
  have e : ∀ (x : ℝ) (k : ℤ), x + d * G.dz = (((k + d : ℤ) : ℝ) + 1) * G.dz ↔ x = ((k : ℝ) + 1) * G.dz := by
    intro x k
    push_cast
    constructor <;> intro hx <;> linarith
  simp only [e]
  congr 1 <;> split_ifs <;> rfl

/-! ## One macroparticle -/

theorem stepV_along {G G' : Geom} (hG : G.Valid) (h : SameSection G G') (F : Fields) (mode : PusherMode) (g : Bool) (dt : ℝ)
    (d : ℤ) {p : Particle} (hd : d = 0 ∨ (G.dz ≤ p.pos.c2 ∧ G.dz ≤ p.pos.c2 + d * G.dz)) :
    stepVSingle G' F mode g dt (p.along (d * G.dz)) =
      (stepVSingle G (F.along d) mode g dt p).map fun q => q.along (d * G.dz) := by
  obtain ⟨e1, e2⟩ := val_along hG h F d (r := p.pos.c0) hd
  unfold stepVSingle
  by_cases ha : p.alive = true
  · rw [if_pos ha, if_pos (show (p.along (d * G.dz)).alive = true from ha)]
    show (push mode g dt p.charge p.mass (valE G' F p.pos.c0 (p.pos.c2 + d * G.dz)) (valH G' F p.pos.c0 (p.pos.c2 + d * G.dz))
      p.vel).bind _ = _
    rw [e1, e2, Option.map_bind]
    congr 1
    funext v
    unfold backPosition halfStep dumpOld Particle.along
    dsimp only [Function.comp]
    split_ifs
    · rfl
    · simp only [Option.map_some, Option.some.injEq, Particle.mk.injEq, V3.mk.injEq, true_and, and_true]
      ring
  · rw [if_neg ha, if_neg (show ¬ (p.along (d * G.dz)).alive = true from ha)]
    rfl

theorem azimuthalCalls_along {G G' : Geom} (hG : G.Valid) (h : SameSection G G') (d : ℤ) {p : Particle}
    (hd : d = 0 ∨ (0 < p.pos.c2 ∧ 0 < p.pos.c2 + d * G.dz)) :
    azimuthalCalls G' (p.along (d * G.dz)) = (azimuthalCalls G p).map (List.map (call d)) := by
  unfold azimuthalCalls
  by_cases ha : p.alive = true
  · rw [if_pos ha, if_pos (show (p.along (d * G.dz)).alive = true from ha)]
    show (azimuthalIncs G' p.charge p.vel.c1 p.pos.c0 (p.pos.c2 + d * G.dz)).map _ = _
    rw [azimuthal_along hG h _ _ _ d hd, Option.map_map, Option.map_map]
    congr 1
    funext l
    exact callsOf_along _ d l
  · rw [if_neg ha, if_neg (show ¬ (p.along (d * G.dz)).alive = true from ha)]
    rfl

theorem moveCalls_along {G G' : Geom} (hG : G.Valid) (h : SameSection G G') (dt : ℝ) (d : ℤ) {p : Particle}
    (hd : p.alive = true → (d = 0 ∨ (0 < p.pos.c2 ∧ 0 < p.pos.c2 + d * G.dz)) ∧
      (d = 0 ∨ (0 < p.posOld.c2 ∧ 0 < p.posOld.c2 + d * G.dz))) :
    moveCalls G' dt (p.along (d * G.dz)) = (moveCalls G dt p).map (List.map (call d)) := by
  unfold moveCalls
  by_cases ha : p.alive = true
  · rw [if_pos ha, if_pos (show (p.along (d * G.dz)).alive = true from ha)]
    show (currentOfMove G' dt p.charge p.pos.c0 (p.pos.c2 + d * G.dz) p.posOld.c0 (p.posOld.c2 + d * G.dz)).map _ = _
    rw [current_along hG h dt _ _ _ d (hd ha).1 (hd ha).2, Option.map_map, Option.map_map]
    congr 1
    funext J
    simp only [Function.comp, incs, List.map_append, callsOf_along]
  · rw [if_neg ha, if_neg (show ¬ (p.along (d * G.dz)).alive = true from ha)]
    rfl

theorem backV_along (p : Particle) (s : ℝ) : backVelocitySingle (p.along s) = (backVelocitySingle p).along s := by
  unfold backVelocitySingle backVelocity Particle.along
  dsimp only
  split_ifs <;> rfl

theorem along_zero (p : Particle) : p.along 0 = p := by
  unfold Particle.along
  simp only [add_zero]

theorem low_along {G G' : Geom} (h : SameSection G G') (s : ℝ) {p : Particle}
    (hs : s = 0 ∨ (¬ p.pos.c2 < G.dz / 2 ∧ ¬ p.pos.c2 + s < G.dz / 2)) :
    reflectLow G' (p.along s) = (reflectLow G p).along s := by
  rcases hs with rfl | ⟨h1, h3⟩
  · rw [along_zero, along_zero]
    unfold reflectLow
    rw [h.dr, h.dz]
  · unfold reflectLow Particle.along
    dsimp only
    rw [h.dr, h.dz]
    by_cases hr : p.pos.c0 < G.dr / 2
    · simp only [if_pos hr, if_neg h1, if_neg h3]
    · simp only [if_neg hr, if_neg h1, if_neg h3]

/-- the far wall, for macroparticles that are mirrored -/
theorem far_along {G G' : Geom} (s : ℝ) (u : Particle)
    (hs : G'.z_size = G.z_size + s ∨ (u.pos.c2 ≤ G.z_size - G.dz / 2 ∧ u.pos.c2 + s ≤ G'.z_size - G.dz / 2)) :
    (if (u.along s).pos.c2 > G'.z_size - G.dz / 2 then
      { u.along s with pos := ⟨(u.along s).pos.c0, (u.along s).pos.c1, (G'.z_size - G.dz / 2) * 2 - (u.along s).pos.c2⟩,
                       vel := ⟨(u.along s).vel.c0, (u.along s).vel.c1, -(u.along s).vel.c2⟩ } else u.along s) =
    Particle.along (if u.pos.c2 > G.z_size - G.dz / 2 then
      { u with pos := ⟨u.pos.c0, u.pos.c1, (G.z_size - G.dz / 2) * 2 - u.pos.c2⟩, vel := ⟨u.vel.c0, u.vel.c1, -u.vel.c2⟩ }
      else u) s := by
  have hz : (u.along s).pos.c2 = u.pos.c2 + s := rfl
  rcases hs with hs | ⟨h1, h2⟩
  · by_cases hc : u.pos.c2 > G.z_size - G.dz / 2
    · rw [if_pos hc, if_pos (by rw [hz, hs]; linarith)]
      simp only [Particle.along, Particle.mk.injEq, V3.mk.injEq, true_and, and_true]
      rw [hs]
      ring
    · rw [if_neg hc, if_neg (by rw [hz, hs]; intro h; apply hc; linarith)]
  · rw [if_neg (by rw [hz]; linarith), if_neg (by linarith)]

/-- the far wall, for bunches -/
theorem kill_along {G G' : Geom} (s : ℝ) (u : Particle)
    (hs : G'.z_size = G.z_size + s ∨ (u.pos.c2 ≤ G.z_size - G.dz / 2 ∧ u.pos.c2 + s ≤ G'.z_size - G.dz / 2)) :
    (if (u.along s).pos.c2 > G'.z_size - G.dz / 2 then { u.along s with alive := false } else u.along s) =
    Particle.along (if u.pos.c2 > G.z_size - G.dz / 2 then { u with alive := false } else u) s := by
  have hz : (u.along s).pos.c2 = u.pos.c2 + s := rfl
  rcases hs with hs | ⟨h1, h2⟩
  · by_cases hc : u.pos.c2 > G.z_size - G.dz / 2
    · rw [if_pos hc, if_pos (by rw [hz, hs]; linarith)]
      rfl
    · rw [if_neg hc, if_neg (by rw [hz, hs]; intro h; apply hc; linarith)]
  · rw [if_neg (by rw [hz]; linarith), if_neg (by linarith)]

/-- the reflection commutes with the translation -/
theorem reflect_along {G G' : Geom} (h : SameSection G G') (b : Bool) (s : ℝ) {p : Particle}
    (hL : s = 0 ∨ (G.dz / 2 ≤ p.pos.c2 ∧ G.dz / 2 ≤ p.pos.c2 + s ∧ G.dz / 2 ≤ (G.z_size - G.dz / 2) * 2 - p.pos.c2 ∧
      G.dz / 2 ≤ (G.z_size - G.dz / 2) * 2 - p.pos.c2 + s))
    (hR : G'.z_size = G.z_size + s ∨ (p.pos.c2 ≤ G.z_size - G.dz / 2 ∧ p.pos.c2 + s ≤ G'.z_size - G.dz / 2)) :
    reflectionOf b G' (p.along s) = (reflectionOf b G p).along s := by
  have low : ∀ u : Particle, (u.pos.c2 = p.pos.c2 ∨ u.pos.c2 = (G.z_size - G.dz / 2) * 2 - p.pos.c2) →
      reflectLow G' (u.along s) = (reflectLow G u).along s := by
    intro u hu
    refine low_along h s (hL.imp_right fun ⟨a1, a2, a3, a4⟩ => ?_)
    rcases hu with hu | hu <;> rw [hu]
    exacts [⟨not_lt.2 a1, not_lt.2 a2⟩, ⟨not_lt.2 a3, not_lt.2 a4⟩]
  cases b
  · simp only [reflectionOf, Bool.false_eq_true, if_false, reflection]
    rw [h.dr, h.dz, h.r_size]
    obtain ⟨u, hu⟩ : ∃ u, u = if p.pos.c0 > G.r_size - G.dr / 2 then
      { p with pos := ⟨(G.r_size - G.dr / 2) * 2 - p.pos.c0, p.pos.c1, p.pos.c2⟩, vel := ⟨-p.vel.c0, p.vel.c1, p.vel.c2⟩ }
      else p := ⟨_, rfl⟩
    have hu' : (if (p.along s).pos.c0 > G.r_size - G.dr / 2 then
        { p.along s with pos := ⟨(G.r_size - G.dr / 2) * 2 - (p.along s).pos.c0, (p.along s).pos.c1, (p.along s).pos.c2⟩,
                         vel := ⟨-(p.along s).vel.c0, (p.along s).vel.c1, (p.along s).vel.c2⟩ } else p.along s) = u.along s := by
      rw [hu]
      by_cases hr : p.pos.c0 > G.r_size - G.dr / 2
      · rw [if_pos hr, if_pos (show (p.along s).pos.c0 > _ from hr)]; rfl
      · rw [if_neg hr, if_neg (show ¬ (p.along s).pos.c0 > _ from hr)]
    have hz : u.pos.c2 = p.pos.c2 := by rw [hu]; split_ifs <;> rfl
    rw [hu', ← hu, far_along s u (by rw [hz]; exact hR)]
    apply low
    split_ifs
    · right; show _ - u.pos.c2 = _; rw [hz]
    · left; exact hz
  · simp only [reflectionOf, if_true, bunchReflection]
    rw [h.dr, h.dz, h.r_size]
    obtain ⟨u, hu⟩ : ∃ u, u = if p.pos.c0 > G.r_size - G.dr / 2 then { p with alive := false } else p := ⟨_, rfl⟩
    have hu' : (if (p.along s).pos.c0 > G.r_size - G.dr / 2 then { p.along s with alive := false } else p.along s) =
        u.along s := by
      rw [hu]
      by_cases hr : p.pos.c0 > G.r_size - G.dr / 2
      · rw [if_pos hr, if_pos (show (p.along s).pos.c0 > _ from hr)]; rfl
      · rw [if_neg hr, if_neg (show ¬ (p.along s).pos.c0 > _ from hr)]
    have hz : u.pos.c2 = p.pos.c2 := by rw [hu]; split_ifs <;> rfl
    rw [hu', ← hu, kill_along s u (by rw [hz]; exact hR)]
    apply low
    left
    rw [← hz]
    split_ifs <;> rfl

theorem half_along (dt : ℝ) (p : Particle) (s : ℝ) : halfStep dt (p.along s) = (halfStep dt p).along s := by
  unfold halfStep Particle.along
  simp only [Particle.mk.injEq, V3.mk.injEq, true_and, and_true]
  ring

theorem backPos_along (p : Particle) (s : ℝ) : backPosition (p.along s) = (backPosition p).map fun q => q.along s := by
  unfold backPosition Particle.along
  dsimp only
  split_ifs <;> rfl

/-- the cycle of a macroparticle in the two chambers -/
theorem part_along {G G' : Geom} (hG : G.Valid) (hnr : 3 ≤ G.nr) (hnz : 3 ≤ G.nz) (h : SameSection G G') {F : Fields}
    {mode : PusherMode} (hmode : mode = .borisRelativistic ∨ mode = .vay) {dt : ℝ} (hdt : 0 < dt)
    (hdr : LIGHT_SPEED * dt ≤ G.dr) (hdz : LIGHT_SPEED * dt ≤ G.dz) (d : ℤ) {b : Bool} {p p' : Particle} {K : List JCall}
    (hp : Inside G p) (ha : p.alive = true) (hL : d = 0 ∨ (3 * G.dz ≤ p.pos.c2 ∧ 3 * G.dz ≤ p.pos.c2 + d * G.dz))
    (hR : G'.z_size = G.z_size + d * G.dz ∨
      (p.pos.c2 ≤ G.z_size - 3 * G.dz ∧ p.pos.c2 + d * G.dz ≤ G'.z_size - 3 * G.dz))
    (hc : PartCycle G (F.along d) mode dt b p K p') :
    PartCycle G' F mode dt b (p.along (d * G.dz)) (K.map (call d)) (p'.along (d * G.dz)) := by
  have dz := hG.dz_pos
  obtain ⟨hreg, g, q, hq, q2, la, lc, c1, c2, c3, rfl, rfl⟩ := hc
  obtain ⟨q', e, hmid⟩ := stepV_mid hG hdt hdr hmode (F := F.along d) hp hreg g
  rw [hq, Option.some.injEq] at e
  subst e
  obtain ⟨o1, o2⟩ := stepV_old hq
  rw [ha] at o1
  obtain ⟨-, -, -, m4, -, m6⟩ := hmid o1
  have m2 := abs_lt.1 (disp_lt hdt (comp_lt m6).2 hdz)
  rw [(o2 ha).2] at m4
  obtain ⟨i1, i2, i3, i4⟩ := hreg ha
  have z1 : p.pos.c2 - G.dz < q.pos.c2 := by linarith
  have z2 : (halfStep dt q).pos.c2 = q.pos.c2 + q.vel.c2 * (dt / 2) := rfl
  have z3 : p.pos.c2 - G.dz < (halfStep dt q).pos.c2 := by linarith
  have z4 : (halfStep dt q).pos.c2 < p.pos.c2 + G.dz := by linarith
  have r1 := reflect_along h b (d * G.dz) (p := halfStep dt q)
    (hL.imp (fun h => by rw [h]; simp) fun h => ⟨by linarith [h.1], by linarith [h.2], by linarith [h.1], by linarith [h.2]⟩)
    (hR.imp_right fun h => ⟨by linarith [h.1], by linarith [h.2]⟩)
  obtain ⟨q2', w1, -, -, w2⟩ := move_where b hG hnr hnz hdt hdr hdz hmid
  rw [c2, Option.some.injEq] at w1
  subst w1
  have hm := c2
  unfold moveHalfReflectSingle at hm
  rw [if_pos o1] at hm
  have old : q2.posOld.c2 = p.pos.c2 := by
    rw [← (o2 ha).2]
    unfold backPosition at hm
    dsimp only at hm
    split_ifs at hm
    cases hm
    show (reflectionOf b G (halfStep dt q)).posOld.c2 = _
    have hk : ∀ u : Particle, (reflectionOf b G u).posOld = u.posOld := by
      intro u
      have hl : ∀ u, (reflectLow G u).posOld = u.posOld := by
        intro u
        unfold reflectLow
        dsimp only
        repeat' split
        all_goals rfl
      cases b <;> simp only [reflectionOf, Bool.false_eq_true, if_false, if_true, reflection, bunchReflection] <;> rw [hl] <;>
        (repeat' split) <;> rfl
    rw [hk]
    rfl
  refine ⟨?_, g, q.along (d * G.dz), ?_, q2.along (d * G.dz), la.map (call d), lc.map (call d), ?_, ?_, ?_, ?_, ?_⟩
  · intro _
    unfold InRegion
    rw [h.dr, h.dz, h.r_size]
    refine ⟨i1, i2, ?_, ?_⟩
    · show _ ≤ p.pos.c2 + _
      rcases hL with hL | hL
      · rw [hL]; simpa using i3
      · linarith [hL.2]
    · show p.pos.c2 + _ ≤ _
      rcases hR with hR | hR
      · rw [hR]; linarith
      · linarith [hR.2]
  · rw [stepV_along hG h F mode g dt d (hL.imp_right fun h => ⟨by linarith [h.1], by linarith [h.2]⟩), hq]
    rfl
  · rw [azimuthalCalls_along hG h d (hL.imp_right fun h => ⟨by linarith [h.1], by linarith [h.2]⟩), c1]
    rfl
  · unfold moveHalfReflectSingle
    rw [if_pos (show (q.along (d * G.dz)).alive = true from o1), half_along, r1, backPos_along, hm]
    rfl
  · rw [moveCalls_along hG h dt d ?_, c3]
    · rfl
    · intro ha2
      have := (abs_lt.1 (w2 ha2).2.2).1
      rw [(o2 ha).2] at this
      rw [old]
      exact ⟨hL.imp_right fun h => ⟨by linarith [h.1], by linarith [h.2]⟩,
        hL.imp_right fun h => ⟨by linarith [h.1], by linarith [h.2]⟩⟩
  · rw [List.map_append]
  · exact (backV_along q2 _).symm

end Translate

end Verif
