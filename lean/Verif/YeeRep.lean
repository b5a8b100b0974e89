import Verif.YeeModel
import Mathlib.Tactic.Linarith

/-!
# From parallel programs to pure field transformations

`RepOn D F m`: memory `m` holds the values `F` on the set `D` of elements.  `loop_spec` turns
facts about single iterations into the result of a whole parallel loop.
-/

namespace Verif

/-- values of all array elements -/
abbrev Fields := Arr → ℤ → ℤ → ℝ

/-- value of an element -/
def Fields.at (F : Fields) (l : Loc) : ℝ := F l.arr l.i l.k

@[simp] theorem Fields.at_mk (F : Fields) (a : Arr) (i k : ℤ) : F.at ⟨a, i, k⟩ = F a i k := rfl

/-- memory `m` holds `F` on `D` -/
def RepOn (D : Loc → Prop) (F : Fields) (m : Mem Loc) : Prop :=
  ∀ l, D l → m l = some (F.at l)

/-- what a loop writes: `W l = some v` if it stores `v` to `l` -/
abbrev Writes := Arr → ℤ → ℤ → Option ℝ

/-- values after the writes -/
def Fields.write (F : Fields) (W : Writes) : Fields := fun a i k => (W a i k).getD (F a i k)

/-- initialised set after the writes -/
def addDom (D : Loc → Prop) (W : Writes) : Loc → Prop :=
  fun l => D l ∨ (W l.arr l.i l.k).isSome

/-- memory after the writes -/
def memWrite (W : Writes) (m : Mem Loc) : Mem Loc :=
  fun l => if (W l.arr l.i l.k).isSome then W l.arr l.i l.k else m l

/-- loops have finitely many iterations -/
def FiniteLoop (P : YeeLoop) : Prop := ∃ idx : List (ℤ × ℤ), ∀ i, i ∉ idx → P i = .ret ()

theorem box_list (a b c d : ℤ) : ∃ idx : List (ℤ × ℤ), ∀ t : ℤ × ℤ, t ∉ idx →
    ¬ (a ≤ t.1 ∧ t.1 < b ∧ c ≤ t.2 ∧ t.2 < d) := by
  refine ⟨(List.range (b - a).toNat).flatMap (fun x : ℕ => (List.range (d - c).toNat).map
    (fun y : ℕ => (a + (x : ℤ), c + (y : ℤ)))), ?_⟩
  rintro ⟨x, y⟩ h ⟨h1, h2, h3, h4⟩
  apply h
  dsimp only at h1 h2 h3 h4
  have e1 : (x - a).toNat ∈ List.range (b - a).toNat := List.mem_range.2 (by omega)
  have e2 : (y - c).toNat ∈ List.range (d - c).toNat := List.mem_range.2 (by omega)
  refine List.mem_flatMap.2 ⟨_, e1, List.mem_map.2 ⟨_, e2, ?_⟩⟩
  simp only [Prod.mk.injEq]
  omega

theorem finite_par2 (a b c d : ℤ) (body) : FiniteLoop (par2 a b c d body) := by
  obtain ⟨idx, h⟩ := box_list a b c d
  exact ⟨idx, fun t ht => if_neg (h t ht)⟩

theorem finite_parI (a b : ℤ) (body) : FiniteLoop (parI a b body) := by
  obtain ⟨idx, h⟩ := box_list a b 0 1
  exact ⟨idx, fun t ht => if_neg (fun ⟨h1, h2, h3⟩ => h t ht ⟨h1, h2, by omega, by omega⟩)⟩

theorem finite_parK (a b : ℤ) (body) : FiniteLoop (parK a b body) := by
  obtain ⟨idx, h⟩ := box_list 0 1 a b
  exact ⟨idx, fun t ht => if_neg (fun ⟨h1, h2, h3⟩ => h t ht ⟨by omega, by omega, h2, h3⟩)⟩

/-- the result of a loop from the results of its iterations -/
theorem loop_spec {G : Geom} {P : YeeLoop} {D : Loc → Prop} {F : Fields} {m : Mem Loc} (W : Writes)
    (hR : RepOn D F m) (hfin : FiniteLoop P) (hrace : RaceFree P)
    (hst : ∀ t l, (P t).MayStore l → (W l.arr l.i l.k).isSome)
    (hsto : ∀ l : Loc, (W l.arr l.i l.k).isSome → ∃ t, (P t).MayStore l)
    (hsolo : ∀ t, ∃ a, solo (Alloc G) (P t) m = some a ∧
      ∀ l, (P t).MayStore l → a l = W l.arr l.i l.k) :
    LoopSpec (Alloc G) P m (memWrite W m) ∧ RepOn (addDom D W) (F.write W) (memWrite W m) := by
  choose res h1 h2 using hsolo
  refine ⟨⟨hrace, hfin, res, h1, ?_, ?_⟩, ?_⟩
  · intro t l hl
    rw [h2 t l hl]
    simp only [memWrite, hst t l hl, if_true]
  · intro l hl
    have : ¬ (W l.arr l.i l.k).isSome := fun h => by
      obtain ⟨t, ht⟩ := hsto l h; exact hl t ht
    simp only [memWrite, if_neg this]
  · rintro ⟨a, i, k⟩ hl
    simp only [memWrite, Fields.write, Fields.at]
    cases hW : W a i k with
    | some v => simp
    | none =>
      simp only [Option.isSome_none, Bool.false_eq_true, if_false, Option.getD_none]
      rcases hl with hl | hl
      · exact hR _ hl
      · simp [hW] at hl

/-! ## Evaluating one iteration -/

/-- the stores of an iteration, when every load reads `F` -/
def stores (F : Fields) : Task Loc → List (Loc × ℝ)
  | .ret _ => []
  | .load l k => stores F (k (F.at l))
  | .store l v k => (l, v) :: stores F k

/-- every load reads an initialised element not stored before, every store goes to an allocated
element not stored before -/
def Safe (G : Geom) (D : Loc → Prop) (F : Fields) : List Loc → Task Loc → Prop
  | _, .ret _ => True
  | ws, .load l k => D l ∧ Alloc G l ∧ l ∉ ws ∧ Safe G D F ws (k (F.at l))
  | ws, .store l _ k => Alloc G l ∧ l ∉ ws ∧ Safe G D F (l :: ws) k

/-- value stored to `l` -/
def lookupStore (l : Loc) : List (Loc × ℝ) → Option ℝ
  | [] => none
  | (x, v) :: r => if x = l then some v else lookupStore l r

theorem safe_solo {G : Geom} {D : Loc → Prop} {F : Fields} {m0 : Mem Loc} (hR : RepOn D F m0)
    (p : Task Loc) : ∀ (ws : List Loc) (m : Mem Loc), Safe G D F ws p →
      (∀ l, l ∉ ws → m l = m0 l) →
      ∃ a, solo (Alloc G) p m = some a ∧ (∀ l, l ∈ ws → a l = m l) ∧
        ∀ l, (lookupStore l (stores F p)).isSome → a l = lookupStore l (stores F p) := by
  induction p with
  | ret u => intro ws m _ _; exact ⟨m, rfl, fun _ _ => rfl, by simp [stores, lookupStore]⟩
  | load l k ih =>
    intro ws m hs hm
    obtain ⟨h1, h2, h3, h4⟩ := hs
    obtain ⟨a, ha, hb, hc⟩ := ih (F.at l) ws m h4 hm
    exact ⟨a, by rw [solo_load _ h2 ((hm l h3).trans (hR l h1))]; exact ha, hb, hc⟩
  | store l v k ih =>
    intro ws m hs hm
    obtain ⟨h1, h2, h3⟩ := hs
    obtain ⟨a, ha, hb, hc⟩ := ih (l :: ws) (Function.update m l (some v)) h3 (by
      intro x hx
      rw [List.mem_cons, not_or] at hx
      rw [Function.update_of_ne hx.1]; exact hm x hx.2)
    refine ⟨a, by rw [solo_store _ h1]; exact ha, ?_, ?_⟩
    · intro x hx
      rw [hb x (List.mem_cons_of_mem _ hx), Function.update_of_ne]
      rintro rfl; exact h2 hx
    · intro x
      simp only [stores, lookupStore]
      split_ifs with e
      · subst e; intro _; rw [hb l (by simp), Function.update_self]
      · exact hc x

theorem lookup_mayStore {F : Fields} (p : Task Loc) : ∀ l,
    (lookupStore l (stores F p)).isSome → p.MayStore l := by
  induction p with
  | ret u => intro l h; simp [stores, lookupStore] at h
  | load x k ih => intro l h; exact ⟨F.at x, ih _ l h⟩
  | store x v k ih =>
    intro l h
    simp only [stores, lookupStore] at h
    split_ifs at h with e
    · exact Or.inl e
    · exact Or.inr (ih l h)

/-- The result of a loop whose iterations are safe, each element being stored by its owner only. -/
theorem loop_run {G : Geom} {P : YeeLoop} {D : Loc → Prop} {F : Fields} {m : Mem Loc}
    (own : Loc → ℤ × ℤ) (W : Writes) (hR : RepOn D F m) (hfin : FiniteLoop P)
    (hW : ∀ a i k, W a i k = lookupStore ⟨a, i, k⟩ (stores F (P (own ⟨a, i, k⟩))))
    (hst : ∀ t l, (P t).MayStore l → own l = t ∧ (W l.arr l.i l.k).isSome)
    (hld : ∀ t l, (P t).MayLoad l → (W l.arr l.i l.k).isSome → own l = t)
    (hsafe : ∀ t, Safe G D F [] (P t)) :
    LoopSpec (Alloc G) P m (memWrite W m) ∧ RepOn (addDom D W) (F.write W) (memWrite W m) := by
  apply loop_spec W hR hfin
  · exact raceFree_of_owner own (fun l => (W l.arr l.i l.k).isSome)
      (fun t l h => ⟨(hst t l h).2, (hst t l h).1⟩) hld
  · exact fun t l h => (hst t l h).2
  · rintro ⟨a, i, k⟩ h
    rw [hW] at h
    exact ⟨_, lookup_mayStore _ _ h⟩
  · intro t
    obtain ⟨a, ha, -, hc⟩ := safe_solo hR (P t) [] m (hsafe t) (fun _ _ => rfl)
    refine ⟨a, ha, ?_⟩
    rintro ⟨x, i, k⟩ hl
    obtain ⟨h1, h2⟩ := hst t _ hl
    rw [hW, h1] at h2
    rw [hc _ h2, hW, h1]

end Verif
