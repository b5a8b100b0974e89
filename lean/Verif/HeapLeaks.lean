import Verif.HeapProps
import Mathlib.Tactic.Ring
import Mathlib.Tactic.NormNum

/-!
# C104: what is not given back
-/

namespace Verif

/-! ## Sequences -/

theorem hrun_bind {α β : Type} {p : HP α} {g : α → HP β} {H H1 H' : Heap} {x : α} {y : β} (r : HRun p H x H1)
    (s : HRun (g x) H1 y H') : HRun (p >>= g) H y H' := by
  change HRun (p.bind g) H y H'
  induction r with
  | ret x H => exact s
  | step t _ ih =>
    refine .step ?_ (ih s)
    cases t with
    | new h => exact .new h
    | del h => exact .del h

theorem hrun_bind_inv {α β : Type} {p : HP α} {g : α → HP β} {H H' : Heap} {y : β} (r : HRun (p >>= g) H y H') :
    ∃ x H1, HRun p H x H1 ∧ HRun (g x) H1 y H' := by
  change HRun (p.bind g) H y H' at r
  induction p generalizing H with
  | ret x => exact ⟨x, H, .ret _ _, r⟩
  | new k n f ih =>
    cases r with
    | step t r =>
      cases t with
      | new h =>
        obtain ⟨x, H1, r1, r2⟩ := ih _ r
        exact ⟨x, H1, .step (.new h) r1, r2⟩
  | del k a q ih =>
    cases r with
    | step t r =>
      cases t with
      | del h =>
        obtain ⟨x, H1, r1, r2⟩ := ih r
        exact ⟨x, H1, .step (.del h) r1, r2⟩

theorem hfault_bind {α β : Type} {p : HP α} {g : α → HP β} {H H1 : Heap} {x : α} (r : HRun p H x H1) (s : HFault (g x) H1) :
    HFault (p >>= g) H := by
  change HFault (p.bind g) H
  induction r with
  | ret x H => exact s
  | step t _ ih =>
    refine .step ?_ (ih s)
    cases t with
    | new h => exact .new h
    | del h => exact .del h

/-! ## Fields -/

theorem newField_owns (nr nz : ℕ) (L : Heap) : Owns L (newField nr nz) fun x M => x.r.rows.length = nr ∧ x.phi.rows.length = nr ∧
    x.z.rows.length = nr ∧ M = x.r.blocks nr (8 * nz) + (x.phi.blocks nr (8 * nz) + (x.z.blocks nr (8 * nz) + L)) := by
  refine Owns.bind ((newMat_owns nr _ _).mono ?_)
  rintro r M ⟨h1, rfl⟩
  refine Owns.bind ((newMat_owns nr _ _).mono ?_)
  rintro phi M ⟨h2, rfl⟩
  refine Owns.bind ((newMat_owns nr _ _).mono ?_)
  rintro z M ⟨h3, rfl⟩
  refine ⟨h1, h2, h3, ?_⟩
  abel

/-- the last row -/
theorem drop_last {l : List ℕ} {n : ℕ} (hn : 1 ≤ n) (h : l.length = n) : ∃ a, l.drop (n - 1) = [a] := by
  have : (l.drop (n - 1)).length = 1 := by rw [List.length_drop]; omega
  exact List.length_eq_one_iff.1 this

theorem delField_owns (nr nz : ℕ) (hn : 1 ≤ nr) (x : FieldPtr) (h1 : x.r.rows.length = nr) (h2 : x.phi.rows.length = nr)
    (h3 : x.z.rows.length = nr) (L : Heap) :
    Owns (x.r.blocks nr (8 * nz) + (x.phi.blocks nr (8 * nz) + (x.z.blocks nr (8 * nz) + L))) (delField nr x) fun _ M =>
      ∃ a b c, M = rowBlocks (8 * nz) [a, b, c] + L := by
  obtain ⟨a, ha⟩ := drop_last hn h1
  obtain ⟨b, hb⟩ := drop_last hn h2
  obtain ⟨c, hc⟩ := drop_last hn h3
  refine Owns.bind ((delMat_owns _ _ _ _ _).mono ?_)
  rintro _ M rfl
  have e1 : rowBlocks (8 * nz) (x.r.rows.drop (nr - 1)) + (x.phi.blocks nr (8 * nz) + (x.z.blocks nr (8 * nz) + L)) =
      x.phi.blocks nr (8 * nz) + (x.z.blocks nr (8 * nz) + (rowBlocks (8 * nz) [a] + L)) := by
    rw [ha]; abel
  rw [e1]
  refine Owns.bind ((delMat_owns _ _ _ _ _).mono ?_)
  rintro _ M rfl
  have e2 : rowBlocks (8 * nz) (x.phi.rows.drop (nr - 1)) + (x.z.blocks nr (8 * nz) + (rowBlocks (8 * nz) [a] + L)) =
      x.z.blocks nr (8 * nz) + (rowBlocks (8 * nz) [a, b] + L) := by
    rw [hb, rowBlocks_cons (8 * nz) a [b], rowBlocks_cons (8 * nz) a []]
    simp only [rowBlocks, List.map_nil, ← Multiset.singleton_add, Multiset.coe_nil]
    abel
  rw [e2]
  refine (delMat_owns _ _ _ _ _).mono ?_
  rintro _ M rfl
  refine ⟨a, b, c, ?_⟩
  rw [hc]
  simp only [rowBlocks_cons, ← Multiset.singleton_add]
  abel

/-- **C104** (fields). An electric field that is created and deleted leaves the last rows of its three components, a magnetic
field in addition the last row of an array of half steps: exactly these blocks are in use afterwards that were not before. -/
theorem C104_fields_violated (size nr nz : ℕ) (hn : 1 ≤ nr) (H : Heap) (hH : H.Ok) :
    ((∃ x H1 H2, HRun (newEField size nr nz) H x H1 ∧ HRun (delEField nr x) H1 () H2) ∧
      ∀ x H1 H2, HRun (newEField size nr nz) H x H1 → HRun (delEField nr x) H1 () H2 →
        ∃ a b c, H2 = rowBlocks (8 * nz) [a, b, c] + H) ∧
    (∃ x H1 H2, HRun (newHField size nr nz) H x H1 ∧ HRun (delHField nr x) H1 () H2) ∧
      ∀ x H1 H2, HRun (newHField size nr nz) H x H1 → HRun (delHField nr x) H1 () H2 →
        ∃ a b c d, H2 = rowBlocks (8 * nz) [a, b, c] + rowBlocks (8 * (nz - 1)) [d] + H := by
  have hH0 : Heap.Ok (H + 0) := by rwa [add_zero]
  constructor
  · have new : Owns 0 (newEField size nr nz) fun x M => Owns M (delEField nr x) fun _ N => ∃ a b c, N = rowBlocks (8 * nz) [a, b, c] := by
      refine Owns.bind (owns_new fun self => Owns.bind ((newField_owns nr nz _).mono ?_))
      rintro x M ⟨h1, h2, h3, rfl⟩
      refine Owns.bind ((newMat_owns nr _ _).mono ?_)
      rintro fi M ⟨h4, rfl⟩
      refine Owns.pure (Owns.bind ((delMat_all nr _ _ h4 _).mono ?_))
      rintro _ M rfl
      refine Owns.bind ((delField_owns nr nz hn x h1 h2 h3 _).mono ?_)
      rintro _ M ⟨a, b, c, rfl⟩
      rw [Multiset.add_cons, add_zero]
      exact owns_del ⟨a, b, c, rfl⟩
    constructor
    · obtain ⟨x, H1, r⟩ := new.exists_run (B := H)
      obtain ⟨L, rfl, ok, o⟩ := new.run hH0 r
      obtain ⟨⟨⟩, H2, r2⟩ := o.exists_run (B := H)
      rw [add_zero] at r
      exact ⟨x, _, H2, r, r2⟩
    · intro x H1 H2 r r2
      rw [← add_zero H] at r
      obtain ⟨L, rfl, ok, o⟩ := new.run hH0 r
      obtain ⟨N, rfl, -, a, b, c, rfl⟩ := o.run ok r2
      exact ⟨a, b, c, by abel⟩
  · have new : Owns 0 (newHField size nr nz) fun x M => Owns M (delHField nr x) fun _ N =>
        ∃ a b c d, N = rowBlocks (8 * nz) [a, b, c] + rowBlocks (8 * (nz - 1)) [d] := by
      refine Owns.bind (owns_new fun self => Owns.bind ((newField_owns nr nz _).mono ?_))
      rintro x M ⟨h1, h2, h3, rfl⟩
      refine Owns.bind ((newMat_owns nr _ _).mono ?_)
      rintro r M ⟨h4, rfl⟩
      refine Owns.bind ((newMat_owns (nr - 1) _ _).mono ?_)
      rintro phi M ⟨h5, rfl⟩
      refine Owns.bind ((newMat_owns (nr - 1) _ _).mono ?_)
      rintro z M ⟨h6, rfl⟩
      obtain ⟨d, hd⟩ := drop_last hn h4
      obtain ⟨K, hK⟩ : ∃ K : Heap, K = x.r.blocks nr (8 * nz) + (x.phi.blocks nr (8 * nz) + (x.z.blocks nr (8 * nz) +
        (⟨self, .one, size⟩ ::ₘ 0))) := ⟨_, rfl⟩
      rw [← hK]
      have e1 : z.blocks (nr - 1) (8 * nz) + (phi.blocks (nr - 1) (8 * (nz - 1)) + (r.blocks nr (8 * (nz - 1)) + K)) =
        r.blocks nr (8 * (nz - 1)) + (phi.blocks (nr - 1) (8 * (nz - 1)) + (z.blocks (nr - 1) (8 * nz) + K)) := by abel
      rw [e1]
      refine Owns.pure (Owns.bind ((delMat_owns _ _ _ _ _).mono ?_))
      rintro _ M rfl
      have e2 : rowBlocks (8 * (nz - 1)) (r.rows.drop (nr - 1)) + (phi.blocks (nr - 1) (8 * (nz - 1)) +
        (z.blocks (nr - 1) (8 * nz) + K)) = phi.blocks (nr - 1) (8 * (nz - 1)) + (z.blocks (nr - 1) (8 * nz) +
          (rowBlocks (8 * (nz - 1)) [d] + K)) := by rw [hd]; abel
      change Owns (rowBlocks (8 * (nz - 1)) (r.rows.drop (nr - 1)) + (phi.blocks (nr - 1) (8 * (nz - 1)) +
        (z.blocks (nr - 1) (8 * nz) + K))) _ _
      rw [e2]
      refine Owns.bind ((delMat_all _ _ _ h5 _).mono ?_)
      rintro _ M rfl
      refine Owns.bind ((delMat_all _ _ _ h6 _).mono ?_)
      rintro _ M rfl
      have e3 : rowBlocks (8 * (nz - 1)) [d] + K = x.r.blocks nr (8 * nz) + (x.phi.blocks nr (8 * nz) + (x.z.blocks nr (8 * nz) +
        (⟨self, .one, size⟩ ::ₘ rowBlocks (8 * (nz - 1)) [d]))) := by
        rw [hK]
        simp only [← Multiset.singleton_add]
        abel
      rw [e3]
      refine Owns.bind ((delField_owns nr nz hn x h1 h2 h3 _).mono ?_)
      rintro _ M ⟨a, b, c, rfl⟩
      rw [Multiset.add_cons]
      exact owns_del ⟨a, b, c, d, rfl⟩
    constructor
    · obtain ⟨x, H1, r⟩ := new.exists_run (B := H)
      obtain ⟨L, rfl, ok, o⟩ := new.run hH0 r
      obtain ⟨⟨⟩, H2, r2⟩ := o.exists_run (B := H)
      rw [add_zero] at r
      exact ⟨x, _, H2, r, r2⟩
    · intro x H1 H2 r r2
      rw [← add_zero H] at r
      obtain ⟨L, rfl, ok, o⟩ := new.run hH0 r
      obtain ⟨N, rfl, -, a, b, c, d, rfl⟩ := o.run ok r2
      exact ⟨a, b, c, d, by abel⟩

/-- **C104** (currents). Deleting a `Current` is always undefined behaviour: an array is given back as a single object. -/
theorem C104_current_violated (size nr nz : ℕ) (H : Heap) (hH : H.Ok) :
    (∃ x H1, HRun (newCurrent size nr nz) H x H1) ∧
    ∀ x H1, HRun (newCurrent size nr nz) H x H1 → HFault (delCurrent nr x) H1 ∧ ¬ ∃ H2, HRun (delCurrent nr x) H1 () H2 := by
  have hH0 : Heap.Ok (H + 0) := by rwa [add_zero]
  have new : Owns 0 (newCurrent size nr nz) fun x M => ∃ K n, M = x.r.blocks nr (8 * nz) + (x.phi.blocks nr (8 * nz) +
      (x.z.blocks nr (8 * nz) + (⟨x.r1, .many, n⟩ ::ₘ K))) := by
    refine Owns.bind (owns_new fun self => Owns.bind (owns_new fun r1 => Owns.bind (owns_new fun p1 => Owns.bind
      (owns_new fun z1 => ?_))))
    refine Owns.bind ((newMat_owns nr _ _).mono ?_)
    rintro r M ⟨h4, rfl⟩
    refine Owns.bind ((newMat_owns nr _ _).mono ?_)
    rintro phi M ⟨h5, rfl⟩
    refine Owns.bind ((newMat_owns nr _ _).mono ?_)
    rintro z M ⟨h6, rfl⟩
    refine ⟨⟨z1, .many, 8 * (nr * nz)⟩ ::ₘ ⟨p1, .many, 8 * (nr * nz)⟩ ::ₘ ⟨self, .one, size⟩ ::ₘ 0, 8 * (nr * nz), ?_⟩
    simp only [← Multiset.singleton_add]
    abel
  have first : ∀ (x : CurrentPtr) (K : Heap) (n : ℕ), Owns (x.r.blocks nr (8 * nz) + (x.phi.blocks nr (8 * nz) +
      (x.z.blocks nr (8 * nz) + (⟨x.r1, .many, n⟩ ::ₘ K)))) (do delMat (nr - 1) x.r; delMat nr x.phi; delMat (nr - 1) x.z)
      fun _ M => (⟨x.r1, .many, n⟩ : Block) ∈ M := by
    intro x K n
    refine Owns.bind ((delMat_owns _ _ _ _ _).mono ?_)
    rintro _ M rfl
    rw [add_left_comm]
    refine Owns.bind ((delMat_owns _ _ _ _ _).mono ?_)
    rintro _ M rfl
    have e : rowBlocks (8 * nz) (x.phi.rows.drop nr) + (rowBlocks (8 * nz) (x.r.rows.drop (nr - 1)) +
      (x.z.blocks nr (8 * nz) + (⟨x.r1, .many, n⟩ ::ₘ K))) = x.z.blocks nr (8 * nz) + (rowBlocks (8 * nz) (x.phi.rows.drop nr) +
        (rowBlocks (8 * nz) (x.r.rows.drop (nr - 1)) + (⟨x.r1, .many, n⟩ ::ₘ K))) := by abel
    rw [e]
    refine (delMat_owns _ _ _ _ _).mono ?_
    rintro _ M rfl
    simp
  constructor
  · obtain ⟨x, H1, r⟩ := new.exists_run (B := H)
    rw [add_zero] at r
    exact ⟨x, H1, r⟩
  · intro x H1 r
    rw [← add_zero H] at r
    obtain ⟨L, rfl, ok, K, n, rfl⟩ := new.run hH0 r
    have hdel : delCurrent nr x = (do delMat (nr - 1) x.r; delMat nr x.phi; delMat (nr - 1) x.z : HP Unit) >>= fun _ => (do
        HP.delOne x.r1; HP.delOne x.phi1; HP.delOne x.z1; HP.delOne x.self) := by
      have assoc : ∀ {α β γ : Type} (p : HP α) (f : α → HP β) (g : β → HP γ), (p >>= f) >>= g = p >>= fun a => f a >>= g := by
        intro α β γ p f g
        change (p.bind f).bind g = p.bind fun a => (f a).bind g
        induction p with
        | ret x => rfl
        | new k n q ih => simp only [HP.bind, ih]
        | del k a q ih => simp only [HP.bind, ih]
      rw [assoc]
      unfold delCurrent
      congr 1
      funext _
      rw [assoc]
    have bad : ∀ M : Heap, M.Ok → (⟨x.r1, .many, n⟩ : Block) ∈ M → ∀ k, (⟨x.r1, .one, k⟩ : Block) ∉ M := by
      intro M hM h1 k h2
      have := Heap.same hM h1 h2 rfl
      simp at this
    rw [hdel]
    constructor
    · obtain ⟨⟨⟩, H2, r2⟩ := (first x K n).exists_run (B := H)
      obtain ⟨N, rfl, ok2, hm⟩ := (first x K n).run ok r2
      refine hfault_bind r2 (.bad ?_)
      exact bad _ ok2 (Multiset.mem_add.2 (Or.inr hm))
    · rintro ⟨H2, r2⟩
      obtain ⟨⟨⟩, H3, r3, r4⟩ := hrun_bind_inv r2
      obtain ⟨N, rfl, ok2, hm⟩ := (first x K n).run ok r3
      cases r4 with
      | step t r4 =>
        cases t with
        | del h => exact bad _ ok2 (Multiset.mem_add.2 (Or.inr hm)) _ h

/-! ## Solver of Poisson's equation -/

theorem Heap.bytes_add (H K : Heap) : Heap.bytes (H + K) = H.bytes + K.bytes := by
  simp [Heap.bytes]

theorem Heap.bytes_cons (b : Block) (H : Heap) : Heap.bytes (b ::ₘ H) = b.bytes + H.bytes := by
  simp [Heap.bytes]

/-- threads that leave nothing or the same amount each -/
theorem par_count {α : Type} {Q : α → Heap → Prop} {p : HP α} {n : ℕ} {B H' : Heap} {xs : List α} (c b : ℕ) (hB : B.Ok) (h : Owns 0 p Q)
    (hQ : ∀ x M, Q x M → Multiset.card M = c ∧ M.bytes = b) (r : ParRun (List.replicate n p) B xs H') :
    ∃ M : Heap, H' = B + M ∧ H'.Ok ∧ Multiset.card M = n * c ∧ M.bytes = n * b := by
  have z : ∀ n : ℕ, (List.replicate n (0 : Heap)).sum = 0 := by intro n; simp
  have f : ∀ n : ℕ, List.Forall₂ (fun p L => Owns L p Q) (List.replicate n p) (List.replicate n (0 : Heap)) := by
    intro n
    induction n with
    | zero => exact .nil
    | succ n ih => exact .cons h ih
  have len : ∀ {ps : List (HP α)} {H H' : Heap} {xs : List α}, ParRun ps H xs H' → xs.length = ps.length := by
    intro ps H H' xs r
    induction r with
    | done xs H => simp
    | step s _ ih => cases s with | mk s => simpa using ih
  have hB' : Heap.Ok (B + (List.replicate n (0 : Heap)).sum) := by rw [z, add_zero]; exact hB
  have l := len r
  rw [List.length_replicate] at l
  obtain ⟨Ms, hM, e, ok⟩ := par_run (f n) hB' (by rw [z, add_zero]; exact r)
  refine ⟨Ms.sum, e, ok, ?_⟩
  have l2 : Ms.length = n := by rw [← hM.length_eq, l]
  clear e ok l r hB'
  rw [← l2]
  clear l2
  induction hM with
  | nil => simp [Heap.bytes]
  | @cons x M xs Ms h1 _ ih =>
    obtain ⟨i1, i2⟩ := ih
    obtain ⟨h1, h2⟩ := hQ _ _ h1
    rw [List.sum_cons, Multiset.card_add, Heap.bytes_add, i1, i2, h1, h2, List.length_cons]
    constructor <;> ring

theorem sineHeap_owns (nz : ℕ) : Owns 0 (sineHeap nz) fun _ M => Multiset.card M = 1 ∧ M.bytes = 16 * (2 * nz + 2) :=
  owns_new fun a => by simp [Heap.bytes]

/-- **C104** (Poisson's equation). Every solution of Poisson's equation, in every schedule of its threads, leaves exactly two
blocks for each row of the grid in use, of 16 (2 nz + 2) bytes each; a solution can always be completed. -/
theorem C104_solver_violated (nr nz : ℕ) (H : Heap) (hH : H.Ok) :
    (∃ H', SolveHeap nr nz H H') ∧
    ∀ H', SolveHeap nr nz H H' → ∃ L : Heap, H' = H + L ∧ Multiset.card L = 2 * nr ∧ L.bytes = 2 * nr * (16 * (2 * nz + 2)) := by
  have hH0 : Heap.Ok (H + 0) := by rwa [add_zero]
  have a1 : Owns 0 (do let a ← HP.newMany (8 * nr); let b ← HP.newMany (8 * nr); return (a, b) : HP (ℕ × ℕ)) fun x M =>
      M = ⟨x.1, .many, 8 * nr⟩ ::ₘ ⟨x.2, .many, 8 * nr⟩ ::ₘ 0 := by
    refine Owns.bind (owns_new fun a => Owns.bind (owns_new fun b => Owns.pure ?_))
    exact Multiset.cons_swap _ _ _
  have a2 : ∀ a b : ℕ, Owns (⟨a, .many, 8 * nr⟩ ::ₘ ⟨b, .many, 8 * nr⟩ ::ₘ 0) (do HP.delMany a; HP.delMany b : HP Unit) fun _ M => M = 0 :=
    fun a b => Owns.bind (owns_del (owns_del rfl))
  have rep : ∀ p ∈ List.replicate nr (sineHeap nz), Owns 0 p fun _ M => Multiset.card M = 1 ∧ M.bytes = 16 * (2 * nz + 2) := by
    intro p hp
    rw [List.eq_of_mem_replicate hp]
    exact sineHeap_owns nz
  have split : ∀ (a b : ℕ) (A M : Heap), A + (⟨a, .many, 8 * nr⟩ ::ₘ ⟨b, .many, 8 * nr⟩ ::ₘ 0) + M =
      (A + M) + (⟨a, .many, 8 * nr⟩ ::ₘ ⟨b, .many, 8 * nr⟩ ::ₘ 0) := fun a b A M => by abel
  constructor
  · obtain ⟨⟨a, b⟩, H1, r1⟩ := a1.exists_run (B := H)
    obtain ⟨L, e1, ok1, h1⟩ := a1.run hH0 r1
    obtain ⟨xs, H2, r2⟩ := par_exists _ H1 ok1 rep []
    obtain ⟨M, e2, ok2, -⟩ := par_count _ _ ok1 (sineHeap_owns nz) (fun _ _ h => h) r2
    obtain ⟨ys, H3, r3⟩ := par_exists _ H2 ok2 rep []
    obtain ⟨N, e3, ok3, -⟩ := par_count _ _ ok2 (sineHeap_owns nz) (fun _ _ h => h) r3
    have e : H3 = (H + M + N) + (⟨a, .many, 8 * nr⟩ ::ₘ ⟨b, .many, 8 * nr⟩ ::ₘ 0) := by
      rw [e3, e2, e1, h1, split, split]
    obtain ⟨⟨⟩, H4, r4⟩ := (a2 a b).exists_run (B := H + M + N)
    rw [← e] at r4
    rw [add_zero] at r1
    exact ⟨H4, a, b, H1, xs, H2, ys, H3, r1, r2, r3, r4⟩
  · rintro H' ⟨a, b, H1, xs, H2, ys, H3, r1, r2, r3, r4⟩
    rw [← add_zero H] at r1
    obtain ⟨L, e1, ok1, h1⟩ := a1.run hH0 r1
    obtain ⟨M, e2, ok2, c2, b2⟩ := par_count _ _ ok1 (sineHeap_owns nz) (fun _ _ h => h) r2
    obtain ⟨N, e3, ok3, c3, b3⟩ := par_count _ _ ok2 (sineHeap_owns nz) (fun _ _ h => h) r3
    have e : H3 = (H + M + N) + (⟨a, .many, 8 * nr⟩ ::ₘ ⟨b, .many, 8 * nr⟩ ::ₘ 0) := by
      rw [e3, e2, e1, h1, split, split]
    rw [e] at r4 ok3
    obtain ⟨K, e4, -, rfl⟩ := (a2 a b).run ok3 r4
    refine ⟨M + N, by rw [e4]; abel, ?_, ?_⟩
    · rw [Multiset.card_add, c2, c3]; ring
    · rw [Heap.bytes_add, b2, b3]; ring

/-! ## A run -/

/-- blocks that a cycle leaves -/
def CycleEv.lost (e : CycleEv) : ℕ := 1 + (e.fires.map fun x => 1 + x.files).sum

/-- bytes that a cycle leaves -/
def CycleEv.lostBytes (e : CycleEv) : ℕ := 100 + (e.fires.map fun x => 1 + 100 * x.files).sum

/-- blocks of the bunches -/
def bunchBlocks (size : ℕ) (bs : List BunchPtr) : Heap := (bs.map fun b => (⟨b.1, .one, size⟩ : Block) ::ₘ b.2.blocks).sum

theorem bunchBlocks_cons (size : ℕ) (b : BunchPtr) (bs : List BunchPtr) :
    bunchBlocks size (b :: bs) = (⟨b.1, .one, size⟩ ::ₘ b.2.blocks) + bunchBlocks size bs := by
  simp [bunchBlocks]

/-- bunches of `number` macroparticles -/
def BunchesFull (number : ℕ) (bs : List BunchPtr) : Prop := ∀ b ∈ bs, b.2.number = number ∧ b.2.rows.length = number

theorem pushHeap_owns : Owns 0 pushHeap fun _ M => Multiset.card M = 0 ∧ M.bytes = 0 := by
  refine Owns.bind (owns_new fun e => Owns.bind (owns_new fun b => ?_))
  rw [Multiset.cons_swap]
  exact Owns.bind (owns_del (owns_del (by simp [Heap.bytes])))

/-- **C104** (pushes). However many macroparticles are pushed at the same time, and however the threads interleave, there is no
undefined behaviour, the pushes can end, and when they have ended exactly the blocks of before are in use. -/
theorem C104_push (n : ℕ) (H : Heap) (hH : H.Ok) :
    ¬ ParFault (List.replicate n pushHeap) H ∧ (∃ xs H', ParRun (List.replicate n pushHeap) H xs H') ∧
    ∀ xs H', ParRun (List.replicate n pushHeap) H xs H' → H' = H := by
  have z : (List.replicate n (0 : Heap)).sum = 0 := by simp
  have f : ∀ n : ℕ, List.Forall₂ (fun p L => Owns L p fun _ (M : Heap) => Multiset.card M = 0 ∧ M.bytes = 0)
      (List.replicate n pushHeap) (List.replicate n (0 : Heap)) := by
    intro n
    induction n with
    | zero => exact .nil
    | succ n ih => exact .cons pushHeap_owns ih
  refine ⟨?_, ?_, ?_⟩
  · have := par_no_fault (B := H) (f n) (by rw [z, add_zero]; exact hH)
    rwa [z, add_zero] at this
  · refine par_exists _ H hH (Q := fun _ (M : Heap) => Multiset.card M = 0 ∧ M.bytes = 0) ?_ []
    intro p hp
    rw [List.eq_of_mem_replicate hp]
    exact pushHeap_owns
  · intro xs H' r
    obtain ⟨M, e, -, c, -⟩ := par_count 0 0 hH pushHeap_owns (fun _ _ h => h) r
    rw [mul_zero, Multiset.card_eq_zero] at c
    rw [e, c, add_zero]

theorem pathsHeap_owns (n : ℕ) : ∀ L : Heap, Owns L (pathsHeap n) fun _ M => ∃ K : Heap, M = L + K ∧ Multiset.card K = n ∧ K.bytes = 100 * n := by
  induction n with
  | zero => exact fun L => ⟨0, by simp [Heap.bytes]⟩
  | succ n ih =>
    intro L
    refine Owns.bind (owns_new fun a => (ih _).mono ?_)
    rintro _ M ⟨K, rfl, c, b⟩
    refine ⟨⟨a, .many, 100⟩ ::ₘ K, by rw [Multiset.add_cons, Multiset.cons_add], by simp [c], ?_⟩
    rw [Heap.bytes_cons, b]
    ring

theorem dumpHeap_owns (l : List Fire) : ∀ L : Heap, Owns L (dumpHeap l) fun _ M => ∃ K : Heap, M = L + K ∧
    Multiset.card K = (l.map fun x => 1 + x.files).sum ∧ K.bytes = (l.map fun x => 1 + 100 * x.files).sum := by
  induction l with
  | nil => exact fun L => ⟨0, by simp [Heap.bytes]⟩
  | cons x l ih =>
    intro L
    refine Owns.bind (Owns.bind (owns_new fun a => (pathsHeap_owns _ _).mono ?_))
    rintro _ M ⟨K, rfl, c, b⟩
    refine (ih _).mono ?_
    rintro _ M ⟨J, rfl, c', b'⟩
    refine ⟨⟨a, .one, 1⟩ ::ₘ (K + J), ?_, ?_, ?_⟩
    · rw [Multiset.add_cons, Multiset.cons_add, Multiset.cons_add, add_assoc]
    · rw [Multiset.card_cons, Multiset.card_add, c, c', List.map_cons, List.sum_cons]; ring
    · rw [Heap.bytes_cons, Heap.bytes_add, b, b', List.map_cons, List.sum_cons]; ring

theorem eraseHeap_owns (size number : ℕ) (gone : ℕ → Bool) (bs : List BunchPtr) (hf : BunchesFull number bs) :
    ∀ L : Heap, Owns (bunchBlocks size bs + L) (eraseHeap gone bs) fun bs' M =>
      bs' = bs.filter (fun b => !gone b.1) ∧ M = bunchBlocks size bs' + L := by
  induction bs with
  | nil => exact fun L => ⟨rfl, rfl⟩
  | cons b bs ih =>
    intro L
    have ih := ih fun c hc => hf c (by simp [hc])
    obtain ⟨h1, h2⟩ := hf b (by simp)
    unfold eraseHeap
    split
    · rename_i hg
      have e : bunchBlocks size (b :: bs) + L = b.2.blocks + (⟨b.1, .one, size⟩ ::ₘ (bunchBlocks size bs + L)) := by
        rw [bunchBlocks_cons]
        simp only [← Multiset.singleton_add]
        abel
      rw [e]
      refine Owns.bind ((delPart_owns _ (by rw [h1, h2]) _).mono ?_)
      rintro _ M rfl
      refine Owns.bind (owns_del ((ih _).mono ?_))
      rintro bs' M ⟨r, rfl⟩
      exact ⟨by simp [hg, r], rfl⟩
    · rename_i hg
      have e : bunchBlocks size (b :: bs) + L = bunchBlocks size bs + ((⟨b.1, .one, size⟩ ::ₘ b.2.blocks) + L) := by
        rw [bunchBlocks_cons]
        abel
      rw [e]
      refine Owns.bind ((ih _).mono ?_)
      rintro bs' M ⟨r, rfl⟩
      refine Owns.pure ⟨by simp [hg, r], ?_⟩
      rw [bunchBlocks_cons]
      abel

theorem beamHeap_owns (size number : ℕ) (e : CycleEv) (bs : List BunchPtr) (hf : BunchesFull number bs) :
    Owns (bunchBlocks size bs) (beamHeap size number e bs) fun bs' M => BunchesFull number bs' ∧
      (∃ new, bs' = (bs.filter fun b => !e.removed b.1) ++ new ∧ new.length = if e.created then 1 else 0) ∧
      ∃ a, M = ⟨a, .many, 100⟩ ::ₘ bunchBlocks size bs' := by
  refine Owns.bind (owns_new fun a => ?_)
  rw [← Multiset.singleton_add, add_comm]
  refine Owns.bind ((eraseHeap_owns size number _ bs hf _).mono ?_)
  rintro bs' M ⟨r, rfl⟩
  have hf' : BunchesFull number bs' := fun b hb => hf b (by rw [r] at hb; exact List.mem_of_mem_filter hb)
  split
  · refine Owns.bind (owns_new fun self => Owns.bind ((newPart_owns number _).mono ?_))
    rintro x M ⟨h1, h2, rfl⟩
    refine Owns.pure ⟨?_, ⟨[(self, x)], by rw [r], rfl⟩, a, ?_⟩
    · intro b hb
      rcases List.mem_append.1 hb with hb | hb
      · exact hf' b hb
      · rw [List.mem_singleton.1 hb]
        exact ⟨h1, h2⟩
    · simp only [bunchBlocks, List.map_append, List.sum_append, List.map_cons, List.map_nil, List.sum_cons, List.sum_nil,
        ← Multiset.singleton_add]
      abel
  · refine Owns.pure ⟨hf', ⟨[], by rw [r, List.append_nil], rfl⟩, a, ?_⟩
    simp only [← Multiset.singleton_add]
    abel

/-- one cycle -/
theorem heapCycle_spec (size number : ℕ) (e : CycleEv) (bs : List BunchPtr) (hf : BunchesFull number bs) (B : Heap)
    (hB : Heap.Ok (B + bunchBlocks size bs)) :
    ¬ HeapCycleFault size number e bs (B + bunchBlocks size bs) ∧
    (∃ bs' H', HeapCycle size number e bs (B + bunchBlocks size bs) bs' H') ∧
    ∀ bs' H', HeapCycle size number e bs (B + bunchBlocks size bs) bs' H' → BunchesFull number bs' ∧ H'.Ok ∧
      (∃ new, bs' = (bs.filter fun b => !e.removed b.1) ++ new ∧ new.length = if e.created then 1 else 0) ∧
      ∃ L : Heap, H' = B + L + bunchBlocks size bs' ∧ Multiset.card L = e.lost ∧ L.bytes = e.lostBytes := by
  have o1 := beamHeap_owns size number e bs hf
  refine ⟨?_, ?_, ?_⟩
  · rintro (h | ⟨bs', H1, r1, h⟩)
    · exact o1.no_fault hB h
    · obtain ⟨L, e1, ok1, -⟩ := o1.run hB r1
      obtain ⟨nf, -, same⟩ := C104_push e.pushes H1 ok1
      rcases h with h | ⟨xs, H2, r2, h⟩
      · exact nf h
      · rw [same _ _ r2, ← add_zero H1] at h
        exact (dumpHeap_owns e.fires 0).no_fault (by rwa [add_zero]) h
  · obtain ⟨bs', H1, r1⟩ := o1.exists_run (B := B)
    obtain ⟨L, e1, ok1, -⟩ := o1.run hB r1
    obtain ⟨-, ⟨xs, H2, r2⟩, same⟩ := C104_push e.pushes H1 ok1
    obtain ⟨⟨⟩, H3, r3⟩ := (dumpHeap_owns e.fires 0).exists_run (B := H2)
    rw [add_zero] at r3
    exact ⟨bs', H3, H1, xs, H2, r1, r2, r3⟩
  · rintro bs' H' ⟨H1, xs, H2, r1, r2, r3⟩
    obtain ⟨L, e1, ok1, hf', len, a, rfl⟩ := o1.run hB r1
    obtain ⟨-, -, same⟩ := C104_push e.pushes H1 ok1
    rw [same _ _ r2, ← add_zero H1] at r3
    obtain ⟨M, e3, ok3, K, rfl, c, b⟩ := (dumpHeap_owns e.fires 0).run (by rwa [add_zero]) r3
    refine ⟨hf', ok3, len, ⟨a, .many, 100⟩ ::ₘ K, ?_, ?_, ?_⟩
    · rw [e3, e1]
      simp only [← Multiset.singleton_add]
      abel
    · rw [Multiset.card_cons, c, CycleEv.lost]; ring
    · rw [Heap.bytes_cons, b, CycleEv.lostBytes]

/-- **C104** (run). From a heap without bunches, whatever happens in the cycles: no cycle has undefined behaviour and there is always
a next one, in which the removed bunches go and at most one is added; what is in use after `n` cycles is what was in use at the start, the blocks of the bunches that are there, and
`lost` further blocks for each cycle, which no one gives back. -/
theorem C104_run_partial (size number : ℕ) (ev : ℕ → CycleEv) (H : Heap) (hH : H.Ok) (n : ℕ) (bs : List BunchPtr) (H' : Heap)
    (r : HeapRun size number ev [] H n bs H') :
    ¬ HeapCycleFault size number (ev n) bs H' ∧ (∃ bs2 H2, HeapCycle size number (ev n) bs H' bs2 H2) ∧
    (∀ bs2 H2, HeapCycle size number (ev n) bs H' bs2 H2 →
      ∃ new, bs2 = (bs.filter fun b => !(ev n).removed b.1) ++ new ∧ new.length = if (ev n).created then 1 else 0) ∧
    bs.length ≤ ((List.range n).filter fun i => (ev i).created).length ∧
    ∃ L : Heap, H' = H + L + bunchBlocks size bs ∧ Multiset.card L = ((List.range n).map fun i => (ev i).lost).sum ∧
      L.bytes = ((List.range n).map fun i => (ev i).lostBytes).sum := by
  have key : BunchesFull number bs ∧ H'.Ok ∧ bs.length ≤ ((List.range n).filter fun i => (ev i).created).length ∧
    ∃ L : Heap, H' = H + L + bunchBlocks size bs ∧ Multiset.card L = ((List.range n).map fun i => (ev i).lost).sum ∧
      L.bytes = ((List.range n).map fun i => (ev i).lostBytes).sum := by
    induction r with
    | start => exact ⟨fun b hb => by simp at hb, hH, by simp, 0, by simp [bunchBlocks, Heap.bytes]⟩
    | @step n bs1 H1 bs2 H2 _ c ih =>
      obtain ⟨hf, ok, len, L, rfl, hc, hb⟩ := ih
      obtain ⟨hf', ok', ⟨new, rfl, len'⟩, M, e, hc', hb'⟩ := (heapCycle_spec size number (ev n) bs1 hf (H + L) ok).2.2 _ _ c
      refine ⟨hf', ok', ?_, L + M, by rw [e]; abel, ?_, ?_⟩
      · have := List.length_filter_le (fun b : BunchPtr => !(ev n).removed b.1) bs1
        rw [List.length_append, len', List.range_succ, List.filter_append, List.length_append]
        by_cases hcr : (ev n).created
        · simp only [hcr, if_true, List.filter_cons_of_pos, List.filter_nil, List.length_cons, List.length_nil]
          omega
        · simp only [hcr]
          simp only [Bool.false_eq_true, if_false]
          omega
      · rw [Multiset.card_add, hc, hc', List.range_succ, List.map_append, List.sum_append]; simp
      · rw [Heap.bytes_add, hb, hb', List.range_succ, List.map_append, List.sum_append]; simp
  obtain ⟨hf, ok, len, L, rfl, hc, hb⟩ := key
  obtain ⟨h1, h2, h3⟩ := heapCycle_spec size number (ev n) bs hf (H + L) ok
  exact ⟨h1, h2, fun _ _ c => (h3 _ _ c).2.2.1, len, L, rfl, hc, hb⟩

/-- there are runs of any length -/
theorem heapRun_exists (size number : ℕ) (ev : ℕ → CycleEv) (H : Heap) (hH : H.Ok) (n : ℕ) :
    ∃ bs H', HeapRun size number ev [] H n bs H' := by
  induction n with
  | zero => exact ⟨[], H, .start⟩
  | succ n ih =>
    obtain ⟨bs, H', r⟩ := ih
    obtain ⟨-, ⟨bs2, H2, c⟩, -⟩ := C104_run_partial size number ev H hH n bs H' r
    exact ⟨bs2, H2, .step r c⟩

/-- **C104** (growth). No amount of memory is enough for every run: whatever happens in the cycles, and for every bound, runs that are
long enough hold more than this number of blocks and of bytes. -/
theorem C104_growth_violated (size number : ℕ) (ev : ℕ → CycleEv) (H : Heap) (hH : H.Ok) (bound : ℕ) :
    ∃ n, (∃ bs H', HeapRun size number ev [] H n bs H') ∧
      ∀ m bs H', n ≤ m → HeapRun size number ev [] H m bs H' → bound < Multiset.card H' ∧ 100 * bound < H'.bytes := by
  refine ⟨bound + 1, heapRun_exists size number ev H hH _, ?_⟩
  intro m bs H' hm r
  obtain ⟨-, -, -, -, L, rfl, hc, hb⟩ := C104_run_partial size number ev H hH m bs H' r
  have k1 : m ≤ ((List.range m).map fun i => (ev i).lost).sum := by
    clear hm r hc hb
    induction m with
    | zero => simp
    | succ m ih =>
      rw [List.range_succ, List.map_append, List.sum_append]
      simp only [List.map_cons, List.map_nil, List.sum_cons, List.sum_nil]
      have : 1 ≤ (ev m).lost := by unfold CycleEv.lost; omega
      omega
  have k2 : 100 * m ≤ ((List.range m).map fun i => (ev i).lostBytes).sum := by
    clear hm r hc hb k1
    induction m with
    | zero => simp
    | succ m ih =>
      rw [List.range_succ, List.map_append, List.sum_append]
      simp only [List.map_cons, List.map_nil, List.sum_cons, List.sum_nil]
      have : 100 ≤ (ev m).lostBytes := by unfold CycleEv.lostBytes; omega
      omega
  rw [Multiset.card_add, Multiset.card_add, Heap.bytes_add, Heap.bytes_add, hc, hb]
  omega

/-! ## Cases -/

/-- the empty heap -/
theorem heap_zero_ok : Heap.Ok 0 := by simp [Heap.Ok, Heap.used]

/-- a species of three macroparticles and a charge density, of which the first is deleted -/
example : ∃ H os, ObjRun 0 H os ∧ os.length = 1 := by
  obtain ⟨o, H1, r⟩ := ((C104_objects_partial 0 0 heap_zero_ok [] .start).2.1 (.particles 8 3)).2
  have s1 := ObjRun.create (.particles 8 3) ObjRun.start r
  obtain ⟨o2, H2, r2⟩ := ((C104_objects_partial 0 H1 heap_zero_ok _ s1).2.1 (.rho 8 4 5)).2
  have s2 := ObjRun.create (.rho 8 4 5) s1 r2
  obtain ⟨H3, r3⟩ := ((C104_objects_partial 0 H2 heap_zero_ok _ s2).2.2 o (by simp)).2
  exact ⟨H3, [o2], ObjRun.destroy (l := [o2]) (r := []) s2 r3, rfl⟩

/-- an electric field on a grid of 4 × 5 -/
example : ∃ x H1 H2, HRun (newEField 8 4 5) 0 x H1 ∧ HRun (delEField 4 x) H1 () H2 ∧ Multiset.card H2 = 3 := by
  obtain ⟨⟨⟨x, H1, H2, r1, r2⟩, h⟩, -⟩ := C104_fields_violated 8 4 5 (by norm_num) 0 heap_zero_ok
  obtain ⟨a, b, c, e⟩ := h x H1 H2 r1 r2
  exact ⟨x, H1, H2, r1, r2, by rw [e, add_zero, rowBlocks_card]; rfl⟩

/-- a current on a grid of 4 × 5 -/
example : ∃ x H1, HRun (newCurrent 8 4 5) 0 x H1 ∧ HFault (delCurrent 4 x) H1 := by
  obtain ⟨⟨x, H1, r⟩, h⟩ := C104_current_violated 8 4 5 0 heap_zero_ok
  exact ⟨x, H1, r, (h x H1 r).1⟩

/-- Poisson's equation on a grid of 4 × 5 -/
example : ∃ H', SolveHeap 4 5 0 H' ∧ Multiset.card H' = 8 ∧ H'.bytes = 1536 := by
  obtain ⟨⟨H', r⟩, h⟩ := C104_solver_violated 4 5 0 heap_zero_ok
  obtain ⟨L, rfl, c, b⟩ := h H' r
  exact ⟨_, r, by rw [zero_add, c], by rw [zero_add, b]⟩

/-- a bunch of 3 macroparticles in the first cycle, one probe in each cycle -/
example : ∃ bs H', HeapRun 8 3 (fun n => ⟨fun _ => false, n == 0, 3, [⟨1⟩]⟩) [] 0 10 bs H' ∧ 30 ≤ Multiset.card H' := by
  obtain ⟨bs, H', r⟩ := heapRun_exists 8 3 (fun n => ⟨fun _ => false, n == 0, 3, [⟨1⟩]⟩) 0 heap_zero_ok 10
  obtain ⟨-, -, -, -, L, e, c, -⟩ := C104_run_partial _ _ _ 0 heap_zero_ok 10 bs H' r
  refine ⟨bs, H', r, ?_⟩
  rw [e, zero_add, Multiset.card_add, c]
  simp [CycleEv.lost]

end Verif
