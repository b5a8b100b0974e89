import Verif.CycleParts
import Verif.RunAny
import Verif.GatherExact

/-!
# Influence spreads at a finite speed (C103): specification and the parts of the cycle

Two simulations that look the same inside a window of cells look the same, a cycle later, inside a slightly smaller window.
-/

namespace Verif

/-! ## Specification -/

/-- A window of the grid: rows `i0..i1`, columns `k0..k1`.  It may reach beyond the walls and the axis. -/
structure Patch where
  (i0 i1 k0 k1 : ℤ)

/-- the window without its outer `d` rows and columns -/
def Patch.inner (W : Patch) (d : ℕ) : Patch := ⟨W.i0 + d, W.i1 - d, W.k0 + d, W.k1 - d⟩

/-- the node is in the window -/
def Patch.Node (W : Patch) (i k : ℤ) : Prop := W.i0 ≤ i ∧ i ≤ W.i1 ∧ W.k0 ≤ k ∧ k ≤ W.k1

/-- the point is in the window -/
def Patch.Point (W : Patch) (G : Geom) (r z : ℝ) : Prop :=
  W.i0 * G.dr ≤ r ∧ r ≤ W.i1 * G.dr ∧ W.k0 * G.dz ≤ z ∧ z ≤ W.k1 * G.dz

open Classical in
/-- The live macroparticles in the window, in the order of the program, each with whether it belongs to a bunch -/
noncomputable def Patch.seen (W : Patch) (G : Geom) (S : List Species) : List (Bool × Particle) :=
  (tagged S).filter fun x => x.2.alive = true ∧ W.Point G x.2.pos.c0 x.2.pos.c2

/-- Two states of a simulation look the same inside the window: the same values of all field components and currents, and the
same macroparticles (up to what is not used before it is set again). -/
structure SameInside (G : Geom) (W : Patch) (m : Mem Loc) (S : List Species) (M : Mem Loc) (T : List Species) : Prop where
  mem : ∀ a i k, Init G ⟨a, i, k⟩ → W.Node i k → m ⟨a, i, k⟩ = M ⟨a, i, k⟩
  parts : List.Forall₂ (fun x y => x.1 = y.1 ∧ SamePart x.2 y.2) (W.seen G S) (W.seen G T)

/-! ## Fields -/

/-- Two fields agree on the staggered nodes of the window, for the arrays in `A`. -/
def SameNodes (G : Geom) (A : Arr → Prop) (W : Patch) (F F' : Fields) : Prop :=
  ∀ a i k, A a → Init G ⟨a, i, k⟩ → W.Node i k → F a i k = F' a i k

theorem Patch.inner_node {W : Patch} {d e : ℕ} (hde : e ≤ d) {i k : ℤ} (h : (W.inner d).Node i k) : (W.inner e).Node i k := by
  unfold Patch.inner Patch.Node at *
  dsimp only at *
  omega

theorem Patch.inner_zero (W : Patch) : W.inner 0 = W := by
  unfold Patch.inner; simp

theorem Patch.inner_inner (W : Patch) (d e : ℕ) : (W.inner d).inner e = W.inner (d + e) := by
  unfold Patch.inner
  simp only [Patch.mk.injEq]
  push_cast
  refine ⟨?_, ?_, ?_, ?_⟩ <;> ring

theorem hStep_agree {G : Geom} (dt : ℝ) {W : Patch} {F F' : Fields} (h : SameNodes G (fun _ => True) W F F') :
    SameNodes G (fun _ => True) ⟨W.i0, W.i1 - 1, W.k0, W.k1 - 1⟩ (hStep G dt F) (hStep G dt F') := by
  intro a i k _ hI hW
  unfold Patch.Node at hW
  dsimp only at hW
  have key : ∀ b i' k', Init G ⟨b, i', k'⟩ → i ≤ i' → i' ≤ i + 1 → k ≤ k' → k' ≤ k + 1 → F b i' k' = F' b i' k' := by
    intro b i' k' hI' e1 e2 e3 e4
    exact h b i' k' trivial hI' (by unfold Patch.Node; omega)
  cases a <;> simp only [Init, Arr.initRows, Arr.initCols] at hI <;> simp only [hStep, alphaR, alphaPhi, alphaZ] <;>
    (try split_ifs) <;>
    (repeat' first
      | rfl
      | (rw [key _ _ _ (by simp only [Init, Arr.initRows, Arr.initCols]; omega) (by omega) (by omega) (by omega) (by omega)]))

/-- the arrays of the currents -/
def Arr.isJ (a : Arr) : Prop := a = .jr ∨ a = .jphi ∨ a = .jz

theorem eStep_agree {G : Geom} (hG : G.Valid) (dt : ℝ) {V W : Patch} {F F' : Fields}
    (h : SameNodes G (fun a => ¬ a.isJ) V F F') (hJ : SameNodes G Arr.isJ W F F')
    (hV : ∀ i k, W.Node i k → ∀ i' k', i - 1 ≤ i' → i' ≤ i → k - 1 ≤ k' → k' ≤ k → V.Node i' k') :
    SameNodes G (fun _ => True) W (eStep G dt F) (eStep G dt F') := by
  intro a i k _ hI hW
  have h1 := hG.nr_ge
  have h2 := hG.nz_ge
  have key : ∀ b i' k', ¬ Arr.isJ b → Init G ⟨b, i', k'⟩ → i - 1 ≤ i' → i' ≤ i → k - 1 ≤ k' → k' ≤ k → F b i' k' = F' b i' k' :=
    fun b i' k' hb hI' e1 e2 e3 e4 => h b i' k' hb hI' (hV i k hW i' k' e1 e2 e3 e4)
  have keyJ : ∀ b, Arr.isJ b → Init G ⟨b, i, k⟩ → F b i k = F' b i k := fun b hb hI' => hJ b i k hb hI' hW
  cases a <;> simp only [Init, Arr.initRows, Arr.initCols] at hI <;>
    simp only [eStep, newEr, newEphi, newEz, newEz0, kE, kH] <;>
    (try split_ifs) <;>
    (repeat' first
      | rfl
      | (rw [keyJ .jr (Or.inl rfl) (by simp only [Init, Arr.initRows, Arr.initCols]; omega)])
      | (rw [keyJ .jphi (Or.inr (Or.inl rfl)) (by simp only [Init, Arr.initRows, Arr.initCols]; omega)])
      | (rw [keyJ .jz (Or.inr (Or.inr rfl)) (by simp only [Init, Arr.initRows, Arr.initCols]; omega)])
      | (rw [key _ _ _ (by simp [Arr.isJ]) (by simp only [Init, Arr.initRows, Arr.initCols]; omega) (by omega) (by omega)
          (by omega) (by omega)]))

/-! ## Interpolation -/

/-- the four nodes of the cell of a point -/
theorem cell_nodes {x dx : ℝ} (hdx : 0 < dx) (hx : 0 ≤ x) {j : ℤ}
    (hj : j = clamp0 (CELL_NUMBER x dx) ∨ j = clamp0 (CELL_NUMBER x dx) + 1) : x - dx ≤ j * dx ∧ j * dx ≤ x + dx := by
  obtain ⟨h1, h2⟩ := clampCell_spec hdx hx
  rcases hj with rfl | rfl
  · constructor <;> linarith
  · push_cast; constructor <;> linarith

theorem between_cells {a b : ℤ} {x dx s : ℝ} (hdx : 0 < dx) (h1 : ((a : ℝ) + 2) * dx ≤ x) (h2 : x ≤ ((b : ℝ) - 2) * dx)
    (hs : 0 ≤ s) (hs' : s ≤ dx / 2) {j : ℤ} (h3 : x - s - dx ≤ j * dx) (h4 : j * dx ≤ x - s + dx) : a ≤ j ∧ j ≤ b - 1 := by
  constructor
  · have : (a : ℝ) < j + 1 := by
      by_contra hcon
      push Not at hcon
      nlinarith
    exact Int.lt_add_one_iff.1 (by exact_mod_cast this)
  · have : (j : ℝ) ≤ b - 1 := by
      by_contra hcon
      push Not at hcon
      nlinarith
    have h5 : (j : ℝ) ≤ ((b - 1 : ℤ) : ℝ) := by push_cast; exact this
    exact_mod_cast h5

/-- the field at a macroparticle two cells inside the patch -/
theorem val_inside {G : Geom} (hG : G.Valid) (hnr : 3 ≤ G.nr) (hnz : 3 ≤ G.nz) {W : Patch} {F F' : Fields}
    (h : SameNodes G (fun a => ¬ a.isJ) ⟨W.i0, W.i1 - 1, W.k0, W.k1 - 1⟩ F F') {r z : ℝ} (hp : InRegion G r z)
    (hW : (W.inner 2).Point G r z) : valE G F r z = valE G F' r z ∧ valH G F r z = valH G F' r z := by
  classical
  have dr := hG.dr_pos
  have dz := hG.dz_pos
  obtain ⟨e1, e2⟩ := val_congr hG hnr hnz (F := F) (F' := fun a i k => if Init G ⟨a, i, k⟩ then F a i k else 0)
    (fun a i k hI => by simp only [if_pos hI]) hp
  obtain ⟨e3, e4⟩ := val_congr hG hnr hnz (F := F') (F' := fun a i k => if Init G ⟨a, i, k⟩ then F' a i k else 0)
    (fun a i k hI => by simp only [if_pos hI]) hp
  rw [e1, e2, e3, e4]
  obtain ⟨p1, p2, p3, p4⟩ := hp
  obtain ⟨w1, w2, w3, w4⟩ := hW
  simp only [Patch.inner] at w1 w2 w3 w4
  push_cast at w1 w2 w3 w4
  have key : ∀ a, ¬ Arr.isJ a → ∀ sr sz, (sr = 0 ∨ sr = G.dr / 2) → (sz = 0 ∨ sz = G.dz / 2) → ∀ i k : ℤ,
      (i = clamp0 (CELL_NUMBER (r - sr) G.dr) ∨ i = clamp0 (CELL_NUMBER (r - sr) G.dr) + 1) →
      (k = clamp0 (CELL_NUMBER (z - sz) G.dz) ∨ k = clamp0 (CELL_NUMBER (z - sz) G.dz) + 1) →
      (if Init G ⟨a, i, k⟩ then F a i k else 0) = if Init G ⟨a, i, k⟩ then F' a i k else 0 := by
    intro a ha sr sz hsr hsz i k hi hk
    split_ifs with hI
    · refine h a i k ha hI ?_
      have a1 : 0 ≤ sr ∧ sr ≤ G.dr / 2 := by rcases hsr with rfl | rfl <;> constructor <;> linarith
      have a2 : 0 ≤ sz ∧ sz ≤ G.dz / 2 := by rcases hsz with rfl | rfl <;> constructor <;> linarith
      obtain ⟨b1, b2⟩ := cell_nodes dr (by linarith) hi
      obtain ⟨b3, b4⟩ := cell_nodes dz (by linarith) hk
      obtain ⟨c1, c2⟩ := between_cells dr w1 w2 a1.1 a1.2 b1 b2
      obtain ⟨c3, c4⟩ := between_cells dz w3 w4 a2.1 a2.2 b3 b4
      exact ⟨c1, c2, c3, c4⟩
    · rfl
  have half : ∀ a, ¬ Arr.isJ a → ∀ zs, (zs = 0 ∨ zs = 1 / 2) →
      valHalf G (fun i k => if Init G ⟨a, i, k⟩ then F a i k else 0) zs r z =
        valHalf G (fun i k => if Init G ⟨a, i, k⟩ then F' a i k else 0) zs r z := by
    intro a ha zs hzs
    unfold valHalf
    dsimp only
    apply val4_congr
    intro i k hi hk
    refine key a ha (G.dr / 2) (zs * G.dz) (Or.inr rfl) ?_ i k ?_ hk
    · rcases hzs with rfl | rfl
      · left; ring
      · right; ring
    · rwa [show G.dr / 2 = 1 / 2 * G.dr by ring]
  have int : ∀ a, ¬ Arr.isJ a → ∀ zs, (zs = 0 ∨ zs = 1 / 2) →
      valInt G (fun i k => if Init G ⟨a, i, k⟩ then F a i k else 0) zs r z =
        valInt G (fun i k => if Init G ⟨a, i, k⟩ then F' a i k else 0) zs r z := by
    intro a ha zs hzs
    unfold valInt
    dsimp only
    apply val4_congr
    intro i k hi hk
    refine key a ha 0 (zs * G.dz) (Or.inl rfl) ?_ i k ?_ hk
    · rcases hzs with rfl | rfl
      · left; ring
      · right; ring
    · rwa [sub_zero]
  unfold valE valH
  exact ⟨by rw [half .er (by simp [Arr.isJ]) 0 (by simp), int .ephi (by simp [Arr.isJ]) 0 (by simp),
      int .ez (by simp [Arr.isJ]) (1 / 2) (by simp)],
    by rw [int .hrh (by simp [Arr.isJ]) (1 / 2) (by simp), half .hphih (by simp [Arr.isJ]) (1 / 2) (by simp),
      half .hzh (by simp [Arr.isJ]) 0 (by simp)]⟩

/-! ## One macroparticle -/

theorem stepV_inside {G : Geom} (hG : G.Valid) (hnr : 3 ≤ G.nr) (hnz : 3 ≤ G.nz) {W : Patch} {F F' : Fields}
    (h : SameNodes G (fun a => ¬ a.isJ) ⟨W.i0, W.i1 - 1, W.k0, W.k1 - 1⟩ F F') {mode : PusherMode} {g : Bool} {dt : ℝ}
    {p : Particle} (hp : InRegion G p.pos.c0 p.pos.c2) (hW : (W.inner 2).Point G p.pos.c0 p.pos.c2) :
    stepVSingle G F mode g dt p = stepVSingle G F' mode g dt p := by
  unfold stepVSingle
  obtain ⟨e1, e2⟩ := val_inside hG hnr hnz h hp hW
  rw [e1, e2]

theorem stepV_old {G : Geom} {F : Fields} {mode : PusherMode} {g : Bool} {dt : ℝ} {p q : Particle}
    (h : stepVSingle G F mode g dt p = some q) : q.alive = p.alive ∧
      (p.alive = true → q.posOld.c0 = p.pos.c0 ∧ q.posOld.c2 = p.pos.c2) := by
  unfold stepVSingle at h
  split_ifs at h with ha
  · obtain ⟨v, -, h⟩ := Option.bind_eq_some_iff.1 h
    unfold backPosition halfStep dumpOld at h
    dsimp only at h
    split_ifs at h
    cases h
    exact ⟨rfl, fun _ => ⟨rfl, rfl⟩⟩
  · cases h
    exact ⟨rfl, fun h => absurd h ha⟩

/-- where a macroparticle goes in a cycle, and where it deposits -/
theorem part_where {G : Geom} (hG : G.Valid) (hnr : 3 ≤ G.nr) (hnz : 3 ≤ G.nz) {F : Fields} {mode : PusherMode}
    (hmode : mode = .borisRelativistic ∨ mode = .vay) {dt : ℝ} (hdt : 0 < dt) (hdr : LIGHT_SPEED * dt ≤ G.dr)
    (hdz : LIGHT_SPEED * dt ≤ G.dz) {b : Bool} {p p' : Particle} {K : List JCall} (hp : Inside G p)
    (h : PartCycle G F mode dt b p K p') : Inside G p' ∧
      (∀ c ∈ K, c.Ok G ∧ p.alive = true ∧ Close G p.pos.c0 p.pos.c2 c.i c.k) ∧
      (p'.alive = true → p.alive = true ∧ |p'.pos.c0 - p.pos.c0| < G.dr ∧ |p'.pos.c2 - p.pos.c2| < G.dz) := by
  obtain ⟨hreg, g, q, hq, q2, la, lc, h1, h2, h3, rfl, rfl⟩ := h
  obtain ⟨q', e, hmid⟩ := stepV_mid hG hdt hdr hmode (F := F) hp hreg g
  rw [hq, Option.some.injEq] at e
  subst e
  obtain ⟨o1, o2⟩ := stepV_old hq
  obtain ⟨la', a1, a2⟩ := azimuthal_where hG hdt hdr hdz hmid
  rw [h1, Option.some.injEq] at a1
  subst a1
  obtain ⟨q2', b1, ⟨lc', b2, b3⟩, b4, b5⟩ := move_where b hG hnr hnz hdt hdr hdz hmid
  rw [h2, Option.some.injEq] at b1
  subst b1
  rw [h3, Option.some.injEq] at b2
  subst b2
  refine ⟨b4, ?_, ?_⟩
  · intro c hc
    have : c.Ok G ∧ q.alive = true ∧ Close G q.posOld.c0 q.posOld.c2 c.i c.k := by
      rcases List.mem_append.1 hc with hc | hc
      exacts [a2 c hc, b3 c hc]
    obtain ⟨c1, c2, c3⟩ := this
    rw [o1] at c2
    rw [(o2 c2).1, (o2 c2).2] at c3
    exact ⟨c1, c2, c3⟩
  · rw [(backV_props q2).1, (backV_props q2).2.2.2]
    intro ha
    obtain ⟨c1, c2, c3⟩ := b5 ha
    rw [o1] at c1
    rw [(o2 c1).1] at c2
    rw [(o2 c1).2] at c3
    exact ⟨c1, c2, c3⟩

/-- the same macroparticle two cells inside the patch in two simulations -/
theorem part_same {G : Geom} (hG : G.Valid) (hnr : 3 ≤ G.nr) (hnz : 3 ≤ G.nz) {W : Patch} {F F' : Fields}
    (h : SameNodes G (fun a => ¬ a.isJ) ⟨W.i0, W.i1 - 1, W.k0, W.k1 - 1⟩ F F') {mode : PusherMode}
    (hmode : mode ≠ .borisAdaptive) {dt : ℝ} {b : Bool} {p q p' q' : Particle} {K L : List JCall} (hpq : SamePart p q)
    (hW : (W.inner 2).Point G p.pos.c0 p.pos.c2) (ha : p.alive = true) (hp : PartCycle G F mode dt b p K p')
    (hq : PartCycle G F' mode dt b q L q') : K = L ∧ SamePart p' q' := by
  obtain ⟨hreg, g, u, hu, u2, la, lc, a1, a2, a3, rfl, rfl⟩ := hp
  obtain ⟨-, g', v, hv, v2, la', lc', b1, b2, b3, rfl, rfl⟩ := hq
  rw [stepV_inside hG hnr hnz h (hreg ha) hW] at hu
  have s1 := stepV_same hmode hpq hu hv
  have s2 := move_same s1 a2 b2
  rw [azimuthal_same G s1.toSamePart, b1, Option.some.injEq] at a1
  rw [moveCalls_same G dt s2, b3, Option.some.injEq] at a3
  exact ⟨by rw [a1, a3], backV_same s2⟩

/-! ## Lists -/

/-- Rows whose result passes `Q` come from elements that pass `P`; the other rows contribute nothing. -/
theorem rows_filter {α β : Type} {R : α → β → Prop} (P : α → Prop) (Q : β → Prop) [DecidablePred P] [DecidablePred Q]
    (K : β → List JCall) (Z : JCall → Prop) {X : List α} {Y : List β} (h : List.Forall₂ R X Y)
    (hQ : ∀ x ∈ X, ∀ y, R x y → Q y → P x) (hK : ∀ x ∈ X, ∀ y, R x y → ¬ P x → ∀ c ∈ K y, ¬ Z c) :
    ∃ L, List.Forall₂ R (X.filter P) L ∧ Y.filter Q = L.filter Q ∧
      ∀ a i k, (∀ v, Z ⟨a, i, k, v⟩) → callSum (Y.flatMap K) a i k = callSum (L.flatMap K) a i k := by
  induction h with
  | nil => exact ⟨[], .nil, rfl, fun _ _ _ _ => rfl⟩
  | @cons x y X Y hxy t ih =>
    obtain ⟨L, h1, h2, h3⟩ := ih (fun x hx => hQ x (List.mem_cons_of_mem _ hx)) (fun x hx => hK x (List.mem_cons_of_mem _ hx))
    by_cases hP : P x
    · refine ⟨y :: L, ?_, ?_, ?_⟩
      · rw [List.filter_cons_of_pos (by simpa using hP)]
        exact .cons hxy h1
      · by_cases hy : Q y
        · rw [List.filter_cons_of_pos (by simpa using hy), List.filter_cons_of_pos (by simpa using hy), h2]
        · rw [List.filter_cons_of_neg (by simpa using hy), List.filter_cons_of_neg (by simpa using hy), h2]
      · intro a i k hZ
        rw [List.flatMap_cons, List.flatMap_cons, callSum_append, callSum_append, h3 a i k hZ]
    · refine ⟨L, ?_, ?_, ?_⟩
      · rw [List.filter_cons_of_neg (by simpa using hP)]
        exact h1
      · rw [List.filter_cons_of_neg (by simpa using fun hy => hP (hQ x (by simp) y hxy hy)), h2]
      · intro a i k hZ
        rw [List.flatMap_cons, callSum_append, h3 a i k hZ]
        have hz := hK x (by simp) y hxy hP
        have : callSum (K y) a i k = 0 := by
          unfold callSum
          apply List.sum_eq_zero
          intro v hv
          obtain ⟨c, hc, rfl⟩ := List.mem_map.1 hv
          rw [if_neg]
          rintro ⟨e1, e2, e3⟩
          apply hz c hc
          have := hZ c.v
          rw [← e1, ← e2, ← e3] at this
          exact this
        rw [this, zero_add]

theorem forall2_filter {α β : Type} {R : α → β → Prop} {P : α → Prop} {Q : β → Prop} [DecidablePred P] [DecidablePred Q]
    {X : List α} {Y : List β} (h : List.Forall₂ R X Y) (hPQ : ∀ x y, R x y → (P x ↔ Q y)) :
    List.Forall₂ R (X.filter P) (Y.filter Q) := by
  induction h with
  | nil => exact .nil
  | @cons x y X Y hxy t ih =>
    by_cases hP : P x
    · rw [List.filter_cons_of_pos (by simpa using hP), List.filter_cons_of_pos (by simpa using (hPQ x y hxy).1 hP)]
      exact .cons hxy ih
    · rw [List.filter_cons_of_neg (by simpa using hP), List.filter_cons_of_neg (by simpa using fun h => hP ((hPQ x y hxy).2 h))]
      exact ih

end Verif
