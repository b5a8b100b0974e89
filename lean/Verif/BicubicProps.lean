import Verif.Bicubic
import Verif.DiagProps
import Mathlib.Tactic.IntervalCases

/-!
# Bicubic smoothing (C82)

The threads share the variables of the weights. The first part shows that this race is harmless in every interleaving
because all threads store the same values.
-/

namespace Verif

/-! ## Loops whose iterations store agreed values -/

section Agreed
variable {L ι : Type} [DecidableEq L] [DecidableEq ι] (alloc : L → Prop) (val : L → ℝ)

/-- The program only stores `val l` to `l` and only loads cells of `S` or those it has stored to itself. -/
def Agreed : Set L → Task L → Prop
  | _, .ret _ => True
  | S, .load l k => alloc l ∧ l ∈ S ∧ Agreed S (k (val l))
  | S, .store l v k => alloc l ∧ v = val l ∧ Agreed (insert l S) k

/-- the cells that the program stores to when it loads agreed values -/
def storesOf : Task L → Set L
  | .ret _ => ∅
  | .load l k => storesOf (k (val l))
  | .store l _ k => insert l (storesOf k)

variable {alloc val}

/-- what holds all through a loop of agreed iterations -/
structure AgreedInv (P0 : ι → Task L) (m0 : Mem L) (s : PoolState L ι) : Prop where
  todo : ∀ i, ∃ S : Set L, Agreed alloc val S (s.1 i) ∧ ∀ l ∈ S, s.2 l = some (val l)
  keep : ∀ l, s.2 l = m0 l ∨ s.2 l = some (val l)
  frame : ∀ l, (∀ i, l ∉ storesOf val (P0 i)) → s.2 l = m0 l
  sub : ∀ i l, l ∈ storesOf val (s.1 i) → l ∈ storesOf val (P0 i)
  done : ∀ i l, l ∈ storesOf val (P0 i) → l ∈ storesOf val (s.1 i) ∨ s.2 l = some (val l)

theorem AgreedInv.start {P0 : ι → Task L} {m0 : Mem L}
    (h : ∀ i, Agreed alloc val {l | m0 l = some (val l)} (P0 i)) :
    AgreedInv (alloc := alloc) (val := val) P0 m0 (P0, m0) :=
  ⟨fun i => ⟨_, h i, fun _ hl => hl⟩, fun _ => Or.inl rfl, fun _ _ => rfl, fun _ _ h => h, fun _ _ h => Or.inl h⟩

theorem AgreedInv.step {P0 : ι → Task L} {m0 : Mem L} {s t : PoolState L ι}
    (h : AgreedInv (alloc := alloc) (val := val) P0 m0 s) (st : PoolStep alloc s t) :
    AgreedInv (alloc := alloc) (val := val) P0 m0 t := by
  cases st with
  | load P m i l k v hP ha hm =>
    obtain ⟨S, hS, hv⟩ := h.todo i
    dsimp only at hS hv
    rw [hP] at hS
    obtain ⟨-, hl, hk⟩ := hS
    have e : v = val l := by
      have := hv l hl
      rw [hm] at this
      exact Option.some.inj this
    subst e
    have hst : ∀ j, storesOf val (Function.update P i (k (val l)) j) = storesOf val (P j) := by
      intro j
      by_cases hj : j = i
      · subst hj; rw [Function.update_self, hP]; rfl
      · rw [Function.update_of_ne hj]
    refine ⟨?_, h.keep, h.frame, ?_, ?_⟩
    · intro j
      by_cases hj : j = i
      · subst hj; exact ⟨S, by dsimp only; rw [Function.update_self]; exact hk, hv⟩
      · dsimp only; rw [Function.update_of_ne hj]; exact h.todo j
    · intro j x hx; dsimp only at hx; rw [hst] at hx; exact h.sub j x hx
    · intro j x hx; dsimp only; rw [hst]; exact h.done j x hx
  | store P m i l v k hP ha =>
    obtain ⟨S, hS, hv⟩ := h.todo i
    dsimp only at hS hv
    rw [hP] at hS
    obtain ⟨-, rfl, hk⟩ := hS
    have up : ∀ x, m x = some (val x) → Function.update m l (some (val l)) x = some (val x) := by
      intro x hx
      by_cases e : x = l
      · subst e; rw [Function.update_self]
      · rw [Function.update_of_ne e]; exact hx
    have hl : l ∈ storesOf val (P0 i) := by
      apply h.sub i; dsimp only; rw [hP]; exact Set.mem_insert _ _
    refine ⟨?_, ?_, ?_, ?_, ?_⟩
    · intro j
      by_cases hj : j = i
      · subst hj
        refine ⟨insert l S, by dsimp only; rw [Function.update_self]; exact hk, ?_⟩
        intro x hx
        rcases hx with rfl | hx
        · dsimp only; rw [Function.update_self]
        · exact up x (hv x hx)
      · obtain ⟨T, hT, hTv⟩ := h.todo j
        exact ⟨T, by dsimp only; rw [Function.update_of_ne hj]; exact hT, fun x hx => up x (hTv x hx)⟩
    · intro x
      by_cases e : x = l
      · subst e; right; dsimp only; rw [Function.update_self]
      · dsimp only; rw [Function.update_of_ne e]; exact h.keep x
    · intro x hx
      have e : x ≠ l := by rintro rfl; exact hx i hl
      dsimp only; rw [Function.update_of_ne e]; exact h.frame x hx
    · intro j x hx
      by_cases hj : j = i
      · subst hj
        dsimp only at hx; rw [Function.update_self] at hx
        apply h.sub j; dsimp only; rw [hP]; exact Set.mem_insert_of_mem _ hx
      · dsimp only at hx; rw [Function.update_of_ne hj] at hx; exact h.sub j x hx
    · intro j x hx
      rcases h.done j x hx with h1 | h1
      · by_cases hj : j = i
        · subst hj
          dsimp only at h1; rw [hP] at h1
          rcases h1 with rfl | h1
          · right; dsimp only; rw [Function.update_self]
          · left; dsimp only; rw [Function.update_self]; exact h1
        · left; dsimp only; rw [Function.update_of_ne hj]; exact h1
      · right; exact up x h1

theorem AgreedInv.reach {P0 : ι → Task L} {m0 : Mem L} {s : PoolState L ι}
    (h : ∀ i, Agreed alloc val {l | m0 l = some (val l)} (P0 i)) (hr : PoolReach alloc (P0, m0) s) :
    AgreedInv (alloc := alloc) (val := val) P0 m0 s := by
  induction hr with
  | refl => exact AgreedInv.start h
  | tail _ st ih => exact ih.step st

/-- An agreed loop never faults, and at its end exactly the cells stored to have the agreed values. -/
theorem agreed_loop {P0 : ι → Task L} {m0 : Mem L} {s : PoolState L ι}
    (h : ∀ i, Agreed alloc val {l | m0 l = some (val l)} (P0 i)) (hr : PoolReach alloc (P0, m0) s) :
    ¬ PoolFault alloc s ∧ (PoolDone s → (∀ i l, l ∈ storesOf val (P0 i) → s.2 l = some (val l)) ∧
      ∀ l, (∀ i, l ∉ storesOf val (P0 i)) → s.2 l = m0 l) := by
  have inv := AgreedInv.reach h hr
  refine ⟨?_, fun hd => ⟨fun i l hl => ?_, inv.frame⟩⟩
  · rintro (⟨i, l, k, hP, hc⟩ | ⟨i, l, v, k, hP, hc⟩)
    · obtain ⟨S, hS, hv⟩ := inv.todo i
      rw [hP] at hS
      rcases hc with hc | hc
      · exact hc hS.1
      · rw [hv l hS.2.1] at hc; exact absurd hc (by simp)
    · obtain ⟨S, hS, hv⟩ := inv.todo i
      rw [hP] at hS
      exact hc hS.1
  · rcases inv.done i l hl with h1 | h1
    · rw [hd i] at h1; exact absurd h1 (Set.notMem_empty l)
    · exact h1

theorem agreed_solo [DecidablePred alloc] : ∀ (p : Task L) (S : Set L) (m : Mem L), Agreed alloc val S p →
    (∀ l ∈ S, m l = some (val l)) → ∃ a, solo alloc p m = some a
  | .ret _, _, m, _, _ => ⟨m, rfl⟩
  | .load l k, S, m, ⟨ha, hl, hk⟩, hm => by
    unfold solo
    rw [hm l hl]
    simp only [ha, if_true]
    exact agreed_solo (k (val l)) S m hk hm
  | .store l v k, S, m, ⟨ha, hv, hk⟩, hm => by
    unfold solo
    rw [if_pos ha]
    refine agreed_solo k _ _ hk ?_
    intro x hx
    by_cases e : x = l
    · subst e; rw [Function.update_self, hv]
    · rw [Function.update_of_ne e]
      rcases hx with hx | hx
      · exact absurd hx e
      · exact hm x hx

/-- An agreed loop with finitely many iterations can run to its end. -/
theorem agreed_completes [DecidablePred alloc] {P0 : ι → Task L} {m0 : Mem L}
    (h : ∀ i, Agreed alloc val {l | m0 l = some (val l)} (P0 i)) (idx : List ι)
    (hidx : ∀ i, i ∉ idx → P0 i = .ret ()) : ∃ s, PoolReach alloc (P0, m0) s ∧ PoolDone s := by
  have key : ∀ (l : List ι) (s : PoolState L ι), PoolReach alloc (P0, m0) s →
      ∃ t, PoolReach alloc (P0, m0) t ∧ (∀ i ∈ l, t.1 i = .ret ()) ∧
        ∀ i, s.1 i = .ret () → t.1 i = .ret () := by
    intro l
    induction l with
    | nil => intro s hs; exact ⟨s, hs, by simp, fun _ h => h⟩
    | cons j l ih =>
      intro s hs
      obtain ⟨S, hS, hv⟩ := (AgreedInv.reach h hs).todo j
      obtain ⟨a, ha⟩ := agreed_solo (s.1 j) S s.2 hS hv
      have h1 := pool_run_one alloc (s.1 j) s.1 j s.2 a rfl ha
      obtain ⟨t, ht1, ht2, ht3⟩ := ih _ (hs.trans h1)
      refine ⟨t, ht1, ?_, ?_⟩
      · intro i hi
        rcases List.mem_cons.1 hi with rfl | hi
        · apply ht3; simp
        · exact ht2 i hi
      · intro i hi
        apply ht3
        by_cases e : i = j
        · subst e; simp
        · simp only; rw [Function.update_of_ne e]; exact hi
  obtain ⟨t, h1, h2, h3⟩ := key idx (P0, m0) Relation.ReflTransGen.refl
  refine ⟨t, h1, ?_⟩
  intro i
  by_cases hi : i ∈ idx
  · exact h2 i hi
  · exact h3 i (hidx i hi)

end Agreed

/-! ## The smoothing -/

theorem halfInt_eq : halfInt = 0 := by
  unfold halfInt; rw [Int.floor_eq_iff]; norm_num

theorem bicubicWeight_eq (k : ℕ) : bicubicWeight halfInt halfInt k = if k = 1 then 1 else 0 := by
  rw [halfInt_eq]
  rcases Nat.lt_or_ge k 17 with h | h
  · interval_cases k <;> rfl
  · rw [if_neg (by omega)]
    unfold bicubicWeight
    split <;> first | omega | rfl

/-- the values of the first loop -/
noncomputable def bicubicVal (a : Grid) : BicubicLoc → ℝ
  | .src i j => a i j
  | .dst i j => a i j
  | .weight k => if k = 1 then 1 else 0

variable {A : ArrSize} {a : Grid}

theorem agreed_weights (p : Task BicubicLoc) : ∀ (ks : List ℕ) (S : Set BicubicLoc), (∀ k ∈ ks, 1 ≤ k ∧ k ≤ 16) →
    Agreed (BicubicLoc.Allocated A) (bicubicVal a) (S ∪ {l | ∃ k ∈ ks, l = .weight k}) p →
    Agreed (BicubicLoc.Allocated A) (bicubicVal a) S (storeWeights ks p)
  | [], S, _, h => by simpa [storeWeights] using h
  | k :: ks, S, hk, h => by
    refine ⟨hk k (by simp), ?_, agreed_weights p ks _ (fun k' h' => hk k' (by simp [h'])) ?_⟩
    · rw [bicubicWeight_eq]; unfold bicubicVal; push_cast; rfl
    · have e : insert (BicubicLoc.weight k) S ∪ {l | ∃ k ∈ ks, l = .weight k}
          = S ∪ {l | ∃ k' ∈ k :: ks, l = .weight k'} := by
        ext l
        simp only [Set.mem_union, Set.mem_insert_iff, Set.mem_ofPred_eq, List.mem_cons, exists_eq_or_imp]
        tauto
      rw [e]; exact h

theorem storesOf_weights (p : Task BicubicLoc) : ∀ (ks : List ℕ),
    storesOf (bicubicVal a) (storeWeights ks p) = {l | ∃ k ∈ ks, l = .weight k} ∪ storesOf (bicubicVal a) p
  | [] => by simp [storeWeights]
  | k :: ks => by
    show insert _ (storesOf (bicubicVal a) (storeWeights ks p)) = _
    rw [storesOf_weights p ks]
    ext l
    simp only [Set.mem_union, Set.mem_insert_iff, Set.mem_ofPred_eq, List.mem_cons, exists_eq_or_imp]
    exact or_assoc.symm

/-- the sum with the weights that the code computes -/
noncomputable def termSum (a : Grid) (i j : ℤ) (ts : List (ℕ × ℤ × ℤ)) : ℝ :=
  (ts.map fun t => (if t.1 = 1 then (1 : ℝ) else 0) * a (i + t.2.1) (j + t.2.2)).sum

theorem agreed_terms (i j : ℤ) (f : ℝ → Task BicubicLoc) : ∀ (ts : List (ℕ × ℤ × ℤ)) (S : Set BicubicLoc) (acc : ℝ),
    (∀ t ∈ ts, (1 ≤ t.1 ∧ t.1 ≤ 16) ∧ BicubicLoc.weight t.1 ∈ S ∧
      BicubicLoc.Allocated A (.src (i + t.2.1) (j + t.2.2)) ∧ BicubicLoc.src (i + t.2.1) (j + t.2.2) ∈ S) →
    Agreed (BicubicLoc.Allocated A) (bicubicVal a) S (f (acc + termSum a i j ts)) →
    Agreed (BicubicLoc.Allocated A) (bicubicVal a) S (sumTerms i j ts acc f)
  | [], S, acc, _, h => by simpa [termSum, sumTerms] using h
  | (k, di, dj) :: ts, S, acc, hk, h => by
    obtain ⟨h1, h2, h3, h4⟩ := hk (k, di, dj) (by simp)
    refine ⟨h1, h2, h3, h4, agreed_terms i j f ts S _ (fun t ht => hk t (by simp [ht])) ?_⟩
    have e : acc + bicubicVal a (.weight k) * bicubicVal a (.src (i + di) (j + dj)) + termSum a i j ts
        = acc + termSum a i j ((k, di, dj) :: ts) := by
      unfold termSum bicubicVal; simp only [List.map_cons, List.sum_cons]; ring
    rw [e]; exact h

theorem storesOf_terms (i j : ℤ) (f : ℝ → Task BicubicLoc) : ∀ (ts : List (ℕ × ℤ × ℤ)) (acc : ℝ),
    storesOf (bicubicVal a) (sumTerms i j ts acc f) = storesOf (bicubicVal a) (f (acc + termSum a i j ts))
  | [], acc => by simp [termSum, sumTerms]
  | (k, di, dj) :: ts, acc => by
    show storesOf (bicubicVal a) (sumTerms i j ts
      (acc + bicubicVal a (.weight k) * bicubicVal a (.src (i + di) (j + dj))) f) = _
    rw [storesOf_terms i j f ts]
    congr 2
    unfold termSum bicubicVal; simp only [List.map_cons, List.sum_cons]; ring

theorem termSum_eq (i j : ℤ) : termSum a i j bicubicTerms = a i j := by
  unfold termSum bicubicTerms; simp

theorem mem_innerIndices (n : ℕ) (j : ℤ) : j ∈ innerIndices n ↔ 2 ≤ j ∧ j < (n : ℤ) - 2 := by
  unfold innerIndices
  simp only [List.mem_map, List.mem_range]
  constructor
  · rintro ⟨k, hk, rfl⟩; omega
  · rintro ⟨h1, h2⟩; exact ⟨(j - 2).toNat, by omega, by omega⟩

theorem agreed_row {x y : ℕ} (hA : x ≤ A.ptrs ∧ y ≤ A.cols) {i : ℤ} (hi : 2 ≤ i ∧ i < (x : ℤ) - 2) :
    ∀ (js : List ℤ) (S : Set BicubicLoc), (∀ j ∈ js, 2 ≤ j ∧ j < (y : ℤ) - 2) →
      (∀ i j : ℤ, 0 ≤ i → i < x → 0 ≤ j → j < y → BicubicLoc.src i j ∈ S) →
      Agreed (BicubicLoc.Allocated A) (bicubicVal a) S (bicubicRow i js)
  | [], _, _, _ => trivial
  | j :: js, S, hj, hS => by
    obtain ⟨j1, j2⟩ := hj j (by simp)
    unfold bicubicRow bicubicBody
    apply agreed_weights
    · intro k hk
      simp only [List.mem_cons, List.not_mem_nil, or_false] at hk
      omega
    apply agreed_terms
    · intro t ht
      have hb : (1 ≤ t.1 ∧ t.1 ≤ 16) ∧ (-1 ≤ t.2.1 ∧ t.2.1 ≤ 2) ∧ -1 ≤ t.2.2 ∧ t.2.2 ≤ 2 := by
        revert t
        unfold bicubicTerms
        decide
      refine ⟨hb.1, Or.inr ⟨t.1, ?_, rfl⟩, ⟨⟨by omega, by omega⟩, by omega, by omega⟩, Or.inl (hS _ _ ?_ ?_ ?_ ?_)⟩
      · simp only [List.mem_cons, List.not_mem_nil, or_false]; omega
      all_goals omega
    · refine ⟨⟨⟨by omega, by omega⟩, by omega, by omega⟩, ?_, ?_⟩
      · rw [termSum_eq, zero_add]; rfl
      · refine agreed_row hA hi js _ (fun j' h' => hj j' (by simp [h'])) ?_
        intro i' j' h1 h2 h3 h4
        exact Set.mem_insert_of_mem _ (Or.inl (hS i' j' h1 h2 h3 h4))

theorem storesOf_row (i : ℤ) : ∀ (js : List ℤ) (l : BicubicLoc), (∀ k, l ≠ .weight k) →
    (l ∈ storesOf (bicubicVal a) (bicubicRow i js) ↔ ∃ j ∈ js, l = .dst i j)
  | [], l, _ => by
    simp only [bicubicRow, storesOf, List.not_mem_nil, false_and, exists_false, iff_false]
    exact Set.notMem_empty l
  | j :: js, l, hl => by
    unfold bicubicRow bicubicBody
    rw [storesOf_weights, storesOf_terms]
    have ih := storesOf_row i js l hl
    constructor
    · rintro (⟨k, _, h⟩ | h | h)
      · exact absurd h (hl k)
      · exact ⟨j, by simp, h⟩
      · obtain ⟨j', h1, h2⟩ := ih.1 h
        exact ⟨j', by simp [h1], h2⟩
    · rintro ⟨j', h1, h2⟩
      rcases List.mem_cons.1 h1 with rfl | h1
      · exact Or.inr (Or.inl h2)
      · exact Or.inr (Or.inr (ih.2 ⟨j', h1, h2⟩))

theorem agreed_zeros : ∀ (ls : List BicubicLoc) (S : Set BicubicLoc), (∀ l ∈ ls, BicubicLoc.Allocated A l) →
    Agreed (BicubicLoc.Allocated A) (fun _ => 0) S (storeZeros ls)
  | [], _, _ => trivial
  | l :: ls, S, h => ⟨h l (by simp), rfl, agreed_zeros ls _ fun l' h' => h l' (by simp [h'])⟩

theorem storesOf_zeros : ∀ (ls : List BicubicLoc), storesOf (fun _ => 0) (storeZeros ls) = {l | l ∈ ls}
  | [] => by simp [storeZeros, storesOf]
  | l :: ls => by
    show insert l (storesOf _ (storeZeros ls)) = _
    rw [storesOf_zeros ls]; ext x; simp

/-- the elements of the border -/
theorem mem_bicubicBorder {x y : ℕ} (hx : 2 ≤ x) (hy : 2 ≤ y) (l : BicubicLoc) :
    l ∈ bicubicBorder x y ↔ ∃ i j : ℤ, l = .dst i j ∧ (0 ≤ i ∧ i < x) ∧ (0 ≤ j ∧ j < y) ∧
      ¬ ((2 ≤ i ∧ i < (x : ℤ) - 2) ∧ 2 ≤ j ∧ j < (y : ℤ) - 2) := by
  unfold bicubicBorder
  simp only [List.mem_append, List.mem_flatMap, List.mem_range, List.mem_cons, List.not_mem_nil, or_false]
  constructor
  · rintro (⟨j, hj, h⟩ | ⟨i, hi, h⟩)
    · rcases h with rfl | rfl | rfl | rfl
      all_goals exact ⟨_, _, rfl, by omega, by omega, by omega⟩
    · rcases h with rfl | rfl | rfl | rfl
      all_goals exact ⟨_, _, rfl, by omega, by omega, by omega⟩
  · rintro ⟨i, j, rfl, hi, hj, hn⟩
    by_cases h : 2 ≤ i ∧ i < (x : ℤ) - 2
    · right
      refine ⟨i.toNat, by omega, ?_⟩
      simp only [BicubicLoc.dst.injEq]
      omega
    · left
      refine ⟨j.toNat, by omega, ?_⟩
      simp only [BicubicLoc.dst.injEq]
      omega

/-- **C82** (partial). On arrays of the sizes passed the smoothing never faults and comes to its end, however the
threads interleave, and the result does not depend on that. But it does not smooth: two rows and columns along each
border become zero, and the others are copied from the source. -/
theorem C82_result_partial (A : ArrSize) (x y : ℕ) (hx : 2 ≤ x) (hy : 2 ≤ y) (hA : x ≤ A.ptrs ∧ y ≤ A.cols) (a : Grid)
    (m : Mem BicubicLoc)
    (hm : ∀ i j : ℤ, 0 ≤ i → i < x → 0 ≤ j → j < y → m (.src i j) = some (a i j)) :
    ¬ RegionFault (BicubicLoc.Allocated A) (bicubicRegion x y) m ∧
    (∃ m', RegionRun (BicubicLoc.Allocated A) (bicubicRegion x y) m m') ∧
    ∀ m', RegionRun (BicubicLoc.Allocated A) (bicubicRegion x y) m m' →
      ∀ i j : ℤ, 0 ≤ i → i < x → 0 ≤ j → j < y →
        m' (.dst i j) = some (if (2 ≤ i ∧ i < (x : ℤ) - 2) ∧ 2 ≤ j ∧ j < (y : ℤ) - 2 then a i j else 0) := by
  have ag1 : ∀ i, Agreed (BicubicLoc.Allocated A) (bicubicVal a) {l | m l = some (bicubicVal a l)}
      (bicubicLoop x y i) := by
    intro i
    unfold bicubicLoop
    split_ifs with hi
    · exact agreed_row hA hi _ _ (fun j hj => (mem_innerIndices y j).1 hj) fun i j h1 h2 h3 h4 => hm i j h1 h2 h3 h4
    · trivial
  have ag2 : ∀ (m1 : Mem BicubicLoc) (i : ℤ), Agreed (BicubicLoc.Allocated A) (fun _ => 0)
      {l | m1 l = some ((fun _ => 0 : BicubicLoc → ℝ) l)}
      (if i = 0 then storeZeros (bicubicBorder x y) else .ret ()) := by
    intro m1 i
    split_ifs
    · apply agreed_zeros
      intro l hl
      obtain ⟨i, j, rfl, hi, hj, -⟩ := (mem_bicubicBorder hx hy l).1 hl
      exact ⟨by omega, by omega⟩
    · trivial
  refine ⟨?_, ?_, ?_⟩
  · intro hf
    cases hf with
    | here P rest m s h hf => exact (agreed_loop ag1 h).1 hf
    | later P rest m s h hd hr =>
      cases hr with
      | here P rest m s' h' hf => exact (agreed_loop (ag2 _) h').1 hf
      | later P rest m s' h' hd' hr => cases hr
  · obtain ⟨s, h1, h2⟩ := agreed_completes ag1 (innerIndices x) (by
      intro i hi
      unfold bicubicLoop
      rw [if_neg (fun h => hi ((mem_innerIndices x i).2 h))])
    obtain ⟨s', h3, h4⟩ := agreed_completes (ag2 s.2) [0] (by
      intro i hi
      rw [if_neg (by simpa using hi)])
    exact ⟨s'.2, .cons _ _ _ _ _ h1 h2 (.cons _ _ _ _ _ h3 h4 (.nil _))⟩
  · intro m' hr i j i1 i2 j1 j2
    cases hr with
    | cons P rest m s m' h hd hr =>
      cases hr with
      | cons P rest m s' m' h' hd' hr =>
        cases hr with
        | nil =>
          obtain ⟨w1, f1⟩ := (agreed_loop ag1 h).2 hd
          obtain ⟨w2, f2⟩ := (agreed_loop (ag2 _) h').2 hd'
          split_ifs with hin
          · rw [f2, w1 i]
            · rfl
            · unfold bicubicLoop
              rw [if_pos hin.1, storesOf_row i _ _ (by simp)]
              exact ⟨j, (mem_innerIndices y j).2 hin.2, rfl⟩
            · intro i'
              split_ifs
              · rw [storesOf_zeros]
                intro hmem
                obtain ⟨i3, j3, e, -, -, hn⟩ := (mem_bicubicBorder hx hy _).1 hmem
                simp only [BicubicLoc.dst.injEq] at e
                obtain ⟨rfl, rfl⟩ := e
                exact hn hin
              · exact Set.notMem_empty _
          · rw [w2 0]
            simp only [if_true]
            rw [storesOf_zeros]
            exact (mem_bicubicBorder hx hy _).2 ⟨i, j, rfl, ⟨i1, i2⟩, ⟨j1, j2⟩, hin⟩

/-- **C82 is violated**: whatever the temperatures, the smoothed map is zero on its border, below every positive lower
bound of the source; and inside a single hot element stays as hot as it was. -/
theorem C82_violated (A : ArrSize) (x y : ℕ) (hx : 5 ≤ x) (hy : 5 ≤ y) (hA : x ≤ A.ptrs ∧ y ≤ A.cols) (a : Grid)
    (m m' : Mem BicubicLoc) (lo : ℝ) (hlo : 0 < lo)
    (hm : ∀ i j : ℤ, 0 ≤ i → i < x → 0 ≤ j → j < y → m (.src i j) = some (a i j) ∧ lo ≤ a i j)
    (hr : RegionRun (BicubicLoc.Allocated A) (bicubicRegion x y) m m') :
    (∃ i j : ℤ, (0 ≤ i ∧ i < x) ∧ (0 ≤ j ∧ j < y) ∧ ∃ v, m' (.dst i j) = some v ∧ v < lo) ∧
      m' (.dst 2 2) = some (a 2 2) := by
  obtain ⟨-, -, h⟩ := C82_result_partial A x y (by omega) (by omega) hA a m
    (fun i j h1 h2 h3 h4 => (hm i j h1 h2 h3 h4).1)
  refine ⟨⟨0, 0, by omega, by omega, 0, ?_, hlo⟩, ?_⟩
  · rw [h m' hr 0 0 (by omega) (by omega) (by omega) (by omega), if_neg (by omega)]
  · rw [h m' hr 2 2 (by omega) (by omega) (by omega) (by omega), if_pos (by omega)]

/-- **C82 is violated in use**: on the arrays of the temperature, which have a column less than the sizes passed, the
smoothing never comes to its end. -/
theorem C82_memory_violated (G : Geom) (hG : G.Valid) (ptrs : ℕ) (m : Mem BicubicLoc) :
    ¬ ∃ m', RegionRun (BicubicLoc.Allocated ⟨ptrs, G.nz - 1⟩) (bicubicRegion G.nr G.nz) m m' := by
  have hz := hG.nz_ge
  have hr2 := hG.nr_ge
  rintro ⟨m', hr⟩
  cases hr with
  | cons P rest m s m' h hd hr =>
    cases hr with
    | cons P rest m s' m' h' hd' hr =>
      have bad : ¬ BicubicLoc.Allocated ⟨ptrs, G.nz - 1⟩ (.dst 0 ((G.nz : ℤ) - 1)) := by
        unfold BicubicLoc.Allocated; dsimp only; omega
      have key : ∀ t, PoolReach (BicubicLoc.Allocated ⟨ptrs, G.nz - 1⟩)
          ((fun i : ℤ => if i = 0 then storeZeros (bicubicBorder G.nr G.nz) else .ret ()), s.2) t →
          ∃ ls, BicubicLoc.dst 0 ((G.nz : ℤ) - 1) ∈ ls ∧ t.1 0 = storeZeros ls := by
        intro t ht
        induction ht with
        | refl =>
          refine ⟨bicubicBorder G.nr G.nz, ?_, by simp⟩
          exact (mem_bicubicBorder hr2 hz _).2 ⟨_, _, rfl, by omega, by omega, by omega⟩
        | tail _ st ih =>
          obtain ⟨ls, hl, hP0⟩ := ih
          cases st with
          | load P m i l k v hP ha hm =>
            have hi : (0 : ℤ) ≠ i := by
              rintro rfl
              dsimp only at hP0
              rw [hP0] at hP
              cases ls <;> cases hP
            exact ⟨ls, hl, by dsimp only; rw [Function.update_of_ne hi]; exact hP0⟩
          | store P m i l v k hP ha =>
            by_cases hi : (0 : ℤ) = i
            · subst hi
              dsimp only at hP0
              rw [hP0] at hP
              cases ls with
              | nil => simp at hl
              | cons l' ls =>
                unfold storeZeros at hP
                injection hP with e1 e2 e3
                rcases List.mem_cons.1 hl with rfl | hl
                · rw [← e1] at ha; exact absurd ha bad
                · exact ⟨ls, hl, by dsimp only; rw [Function.update_self, e3]⟩
            · exact ⟨ls, hl, by dsimp only; rw [Function.update_of_ne hi]; exact hP0⟩
      obtain ⟨ls, hl, e⟩ := key s' h'
      rw [hd' 0] at e
      cases ls with
      | nil => simp at hl
      | cons l ls => cases e

/-- C82: the hypotheses are met by a map of 6 by 7 elements. -/
example : let A : ArrSize := ⟨6, 7⟩
    let m : Mem BicubicLoc := fun l => match l with | .src i j => some (3 + i + j) | _ => none
    (6 ≤ A.ptrs ∧ 7 ≤ A.cols) ∧ ∀ i j : ℤ, 0 ≤ i → i < 6 → 0 ≤ j → j < 7 →
      m (.src i j) = some ((fun i j : ℤ => (3 + i + j : ℝ)) i j) ∧ (3 : ℝ) ≤ (fun i j : ℤ => (3 + i + j : ℝ)) i j := by
  refine ⟨⟨le_rfl, le_rfl⟩, fun i j h1 _ h3 _ => ⟨rfl, ?_⟩⟩
  have : (0 : ℝ) ≤ i := by exact_mod_cast h1
  have : (0 : ℝ) ≤ j := by exact_mod_cast h3
  dsimp only
  linarith

end Verif
