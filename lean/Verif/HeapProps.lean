import Verif.HeapModel

/-!
# C104: dynamic memory
-/

namespace Verif

/-! ## Ownership -/

/-- Started with the blocks `L` of its own, the code is free of undefined behaviour and ends with a result and blocks as `Q`
says, whatever addresses it gets. -/
def Owns {α : Type} : Heap → HP α → (α → Heap → Prop) → Prop
  | L, .ret x, Q => Q x L
  | L, .new k n f, Q => ∀ a, a ∉ L.used → Owns (⟨a, k, n⟩ ::ₘ L) (f a) Q
  | L, .del k a q, Q => ∃ n, (⟨a, k, n⟩ : Block) ∈ L ∧ Owns (L.erase ⟨a, k, n⟩) q Q

theorem Owns.mono {α : Type} {p : HP α} {L : Heap} {Q R : α → Heap → Prop} (h : Owns L p Q) (hQ : ∀ x M, Q x M → R x M) :
    Owns L p R := by
  induction p generalizing L with
  | ret x => exact hQ _ _ h
  | new k n f ih => exact fun a ha => ih a (h a ha)
  | del k a q ih =>
    obtain ⟨n, h1, h2⟩ := h
    exact ⟨n, h1, ih h2⟩

theorem Owns.bind {α β : Type} {p : HP α} {g : α → HP β} {L : Heap} {Q : β → Heap → Prop}
    (h : Owns L p fun x M => Owns M (g x) Q) : Owns L (p >>= g) Q := by
  change Owns L (p.bind g) Q
  induction p generalizing L with
  | ret x => exact h
  | new k n f ih => exact fun a ha => ih a (h a ha)
  | del k a q ih =>
    obtain ⟨n, h1, h2⟩ := h
    exact ⟨n, h1, ih h2⟩

theorem Owns.pure {α : Type} {x : α} {L : Heap} {Q : α → Heap → Prop} (h : Q x L) : Owns L (pure x : HP α) Q := h

theorem Heap.ok_cons {H : Heap} {b : Block} : Heap.Ok (b ::ₘ H) ↔ b.addr ∉ H.used ∧ H.Ok := by
  unfold Heap.Ok Heap.used
  rw [Multiset.map_cons, Multiset.nodup_cons]

theorem Heap.same {H : Heap} (h : H.Ok) {b c : Block} (hb : b ∈ H) (hc : c ∈ H) (e : b.addr = c.addr) : b = c :=
  Multiset.inj_on_of_nodup_map h b hb c hc e

theorem Heap.ok_erase {H : Heap} (h : H.Ok) (b : Block) : Heap.Ok (H.erase b) :=
  Multiset.nodup_of_le (Multiset.map_le_map (Multiset.erase_le b H)) h

theorem Heap.used_add (H K : Heap) : Heap.used (H + K) = H.used + K.used := Multiset.map_add _ _ _

/-- a step of code that owns `L` -/
theorem Owns.step {α : Type} {p q : HP α} {B L H' : Heap} {Q : α → Heap → Prop} (hok : Heap.Ok (B + L)) (h : Owns L p Q)
    (s : HStep p (B + L) q H') : ∃ L', H' = B + L' ∧ Heap.Ok H' ∧ Owns L' q Q := by
  cases s with
  | @new k n f _ a ha =>
    refine ⟨⟨a, k, n⟩ ::ₘ L, by rw [Multiset.add_cons], Heap.ok_cons.2 ⟨ha, hok⟩, h a ?_⟩
    intro h'
    apply ha
    rw [Heap.used_add]
    exact Multiset.mem_add.2 (Or.inr h')
  | @del k n a _ _ hm =>
    obtain ⟨n', h1, h2⟩ := h
    have e := Heap.same hok hm (Multiset.mem_add.2 (Or.inr h1)) rfl
    rw [e]
    refine ⟨L.erase ⟨a, k, n'⟩, ?_, Heap.ok_erase hok _, h2⟩
    rw [Multiset.erase_add_right_pos B h1]

theorem Owns.not_bad {α : Type} {p : HP α} {B L : Heap} {Q : α → Heap → Prop} (h : Owns L p Q) : ¬ HBad p (B + L) := by
  intro hb
  cases p with
  | ret x => exact hb
  | new k n f => exact hb
  | del k a q =>
    obtain ⟨n, h1, -⟩ := h
    exact hb n (Multiset.mem_add.2 (Or.inr h1))

theorem Owns.no_fault {α : Type} {p : HP α} {B L : Heap} {Q : α → Heap → Prop} (hok : Heap.Ok (B + L)) (h : Owns L p Q) :
    ¬ HFault p (B + L) := by
  intro hf
  obtain ⟨H, hH⟩ : ∃ H, H = B + L := ⟨_, rfl⟩
  rw [← hH] at hf
  induction hf generalizing L with
  | bad hb => subst hH; exact h.not_bad hb
  | step s _ ih =>
    subst hH
    obtain ⟨L', e, ok, o⟩ := Owns.step hok h s
    exact ih (L := L') (e ▸ ok) o e

theorem Owns.run {α : Type} {p : HP α} {B L H' : Heap} {Q : α → Heap → Prop} {x : α} (hok : Heap.Ok (B + L)) (h : Owns L p Q)
    (r : HRun p (B + L) x H') : ∃ L', H' = B + L' ∧ Heap.Ok H' ∧ Q x L' := by
  obtain ⟨H, hH⟩ : ∃ H, H = B + L := ⟨_, rfl⟩
  rw [← hH] at r
  induction r generalizing L with
  | ret x H => subst hH; exact ⟨L, rfl, hok, h⟩
  | step s _ ih =>
    subst hH
    obtain ⟨L', e, ok, o⟩ := Owns.step hok h s
    exact ih (L := L') (e ▸ ok) o e

/-- an address that is not in use -/
theorem Heap.fresh (H : Heap) : ∃ a, a ∉ H.used := by
  obtain ⟨a, ha⟩ := Infinite.exists_notMem_finset H.used.toFinset
  exact ⟨a, fun h => ha (Multiset.mem_toFinset.2 h)⟩

theorem Owns.exists_run {α : Type} {p : HP α} {B L : Heap} {Q : α → Heap → Prop} (h : Owns L p Q) :
    ∃ x H', HRun p (B + L) x H' := by
  induction p generalizing L with
  | ret x => exact ⟨x, _, .ret _ _⟩
  | new k n f ih =>
    obtain ⟨a, ha⟩ := Heap.fresh (B + L)
    obtain ⟨x, H', r⟩ := ih a (h a (fun h' => ha (by rw [Heap.used_add]; exact Multiset.mem_add.2 (Or.inr h'))))
    refine ⟨x, H', .step (.new ha) ?_⟩
    rwa [Multiset.add_cons] at r
  | del k a q ih =>
    obtain ⟨n, h1, h2⟩ := h
    obtain ⟨x, H', r⟩ := ih h2
    refine ⟨x, H', .step (.del (Multiset.mem_add.2 (Or.inr h1))) ?_⟩
    rwa [Multiset.erase_add_right_pos B h1]

/-! ## Threads -/

theorem heap_forall2_split {α β : Type} {R : α → β → Prop} {l r : List α} {p : α} {Ls : List β}
    (h : List.Forall₂ R (l ++ p :: r) Ls) : ∃ l' L r', Ls = l' ++ L :: r' ∧ List.Forall₂ R l l' ∧ R p L ∧ List.Forall₂ R r r' := by
  induction l generalizing Ls with
  | nil =>
    cases h with
    | cons h1 h2 => exact ⟨[], _, _, rfl, .nil, h1, h2⟩
  | cons a l ih =>
    cases h with
    | cons h1 h2 =>
      obtain ⟨l', L, r', e, x1, x2, x3⟩ := ih h2
      exact ⟨_ :: l', L, r', by rw [e]; rfl, .cons h1 x1, x2, x3⟩

theorem heap_forall2_join {α β : Type} {R : α → β → Prop} {l r : List α} {p : α} {l' r' : List β} {L : β}
    (h1 : List.Forall₂ R l l') (h2 : R p L) (h3 : List.Forall₂ R r r') : List.Forall₂ R (l ++ p :: r) (l' ++ L :: r') := by
  induction h1 with
  | nil => exact .cons h2 h3
  | cons h _ ih => exact .cons h ih

theorem par_step {α : Type} {ps qs : List (HP α)} {Q : α → Heap → Prop} {B H' : Heap} {Ls : List Heap}
    (h : List.Forall₂ (fun p L => Owns L p Q) ps Ls) (hok : Heap.Ok (B + Ls.sum)) (s : ParStep ps (B + Ls.sum) qs H') :
    ∃ Ms : List Heap, List.Forall₂ (fun p L => Owns L p Q) qs Ms ∧ H' = B + Ms.sum ∧ Heap.Ok H' := by
  obtain ⟨H, hH⟩ : ∃ H, H = B + Ls.sum := ⟨_, rfl⟩
  rw [← hH] at s
  cases s with
  | @mk l r p q _ _ s =>
    obtain ⟨l', L, r', rfl, x1, x2, x3⟩ := heap_forall2_split h
    have e : ∀ M : Heap, B + (l' ++ M :: r').sum = (B + l'.sum + r'.sum) + M := by
      intro M
      rw [List.sum_append, List.sum_cons]
      abel
    rw [e] at hok hH
    subst hH
    obtain ⟨L', e', ok, o⟩ := Owns.step hok x2 s
    exact ⟨l' ++ L' :: r', heap_forall2_join x1 o x3, by rw [e, e'], ok⟩

theorem par_no_fault {α : Type} {ps : List (HP α)} {Q : α → Heap → Prop} {B : Heap} {Ls : List Heap}
    (h : List.Forall₂ (fun p L => Owns L p Q) ps Ls) (hok : Heap.Ok (B + Ls.sum)) : ¬ ParFault ps (B + Ls.sum) := by
  intro hf
  obtain ⟨H, hH⟩ : ∃ H, H = B + Ls.sum := ⟨_, rfl⟩
  rw [← hH] at hf
  induction hf generalizing Ls with
  | bad hp hb =>
    subst hH
    obtain ⟨l, r, rfl⟩ := List.append_of_mem hp
    obtain ⟨l', L, r', rfl, x1, x2, x3⟩ := heap_forall2_split h
    have e : B + (l' ++ L :: r').sum = (B + l'.sum + r'.sum) + L := by
      rw [List.sum_append, List.sum_cons]
      abel
    rw [e] at hb
    exact x2.not_bad hb
  | step s _ ih =>
    subst hH
    obtain ⟨Ms, o, e, ok⟩ := par_step h hok s
    exact ih o (e ▸ ok) e

theorem par_run {α : Type} {ps : List (HP α)} {Q : α → Heap → Prop} {B H' : Heap} {Ls : List Heap} {xs : List α}
    (h : List.Forall₂ (fun p L => Owns L p Q) ps Ls) (hok : Heap.Ok (B + Ls.sum)) (r : ParRun ps (B + Ls.sum) xs H') :
    ∃ Ms : List Heap, List.Forall₂ Q xs Ms ∧ H' = B + Ms.sum ∧ Heap.Ok H' := by
  obtain ⟨H, hH⟩ : ∃ H, H = B + Ls.sum := ⟨_, rfl⟩
  rw [← hH] at r
  induction r generalizing Ls with
  | done xs H =>
    subst hH
    rw [List.forall₂_map_left_iff] at h
    exact ⟨Ls, h, rfl, hok⟩
  | step s _ ih =>
    subst hH
    obtain ⟨Ms, o, e, ok⟩ := par_step h hok s
    exact ih o (e ▸ ok) e

/-- one after another is one of the schedules -/
theorem par_front {α : Type} {p : HP α} {H H' : Heap} {x : α} (r : HRun p H x H') (done : List α) (ps : List (HP α)) {xs : List α}
    {H2 : Heap} (rest : ParRun (done.map .ret ++ HP.ret x :: ps) H' xs H2) : ParRun (done.map .ret ++ p :: ps) H xs H2 := by
  induction r with
  | ret x H => exact rest
  | step s _ ih => exact .step (.mk s) (ih rest)

theorem par_exists {α : Type} {Q : α → Heap → Prop} (ps : List (HP α)) (B : Heap) (hB : B.Ok) (h : ∀ p ∈ ps, Owns 0 p Q)
    (done : List α) : ∃ xs H', ParRun (done.map .ret ++ ps) B xs H' := by
  induction ps generalizing B done with
  | nil =>
    refine ⟨done, B, ?_⟩
    rw [List.append_nil]
    exact .done _ _
  | cons p ps ih =>
    have hp := h p (by simp)
    have hB' : Heap.Ok (B + 0) := by rw [add_zero]; exact hB
    obtain ⟨x, H', r⟩ := hp.exists_run (B := B)
    obtain ⟨L', e, ok, -⟩ := hp.run hB' r
    obtain ⟨xs, H2, r2⟩ := ih H' ok (fun q hq => h q (by simp [hq])) (done ++ [x])
    rw [add_zero] at r
    refine ⟨xs, H2, par_front r done ps ?_⟩
    rw [List.map_append, List.append_assoc] at r2
    exact r2

/-! ## Arrays -/

theorem owns_new {k : NewKind} {n : ℕ} {L : Heap} {Q : ℕ → Heap → Prop} (h : ∀ a, Q a (⟨a, k, n⟩ ::ₘ L)) :
    Owns L (HP.new k n .ret) Q := fun a _ => h a

theorem owns_del {k : NewKind} {n a : ℕ} {L : Heap} {Q : Unit → Heap → Prop} (h : Q () L) :
    Owns (⟨a, k, n⟩ ::ₘ L) (HP.del k a (.ret ())) Q := by
  refine ⟨n, Multiset.mem_cons_self _ _, ?_⟩
  rw [Multiset.erase_cons_head]
  exact h

/-- blocks of rows -/
def rowBlocks (b : ℕ) (l : List ℕ) : Heap := ((l.map fun a => (⟨a, .many, b⟩ : Block) : List Block) : Heap)

theorem rowBlocks_cons (b a : ℕ) (l : List ℕ) : rowBlocks b (a :: l) = ⟨a, .many, b⟩ ::ₘ rowBlocks b l := rfl

theorem rowBlocks_append (b : ℕ) (l l' : List ℕ) : rowBlocks b (l ++ l') = rowBlocks b l + rowBlocks b l' := by
  unfold rowBlocks
  rw [List.map_append]
  rfl

theorem rowBlocks_card (b : ℕ) (l : List ℕ) : Multiset.card (rowBlocks b l) = l.length := by
  unfold rowBlocks
  simp

theorem newRows_owns (n b : ℕ) : ∀ L : Heap, Owns L (newRows n b) fun l M => l.length = n ∧ M = rowBlocks b l + L := by
  induction n with
  | zero => exact fun L => ⟨rfl, by simp [rowBlocks]⟩
  | succ n ih =>
    intro L
    refine Owns.bind (owns_new fun a => ?_)
    refine Owns.bind ((ih _).mono ?_)
    rintro l M ⟨h1, rfl⟩
    refine ⟨by simp [h1], ?_⟩
    rw [rowBlocks_cons, Multiset.cons_add, Multiset.add_cons]

theorem delRows_owns (b : ℕ) (l : List ℕ) (L : Heap) : Owns (rowBlocks b l + L) (delRows l) fun _ M => M = L := by
  induction l with
  | nil => simp [rowBlocks, delRows, Owns.pure]
  | cons a l ih =>
    rw [rowBlocks_cons, Multiset.cons_add]
    exact Owns.bind (owns_del ih)

/-- blocks of a two-dimensional array -/
def Mat.blocks (nr b : ℕ) (x : Mat) : Heap := ⟨x.top, .many, 8 * nr⟩ ::ₘ rowBlocks b x.rows

theorem newMat_owns (nr b : ℕ) (L : Heap) : Owns L (newMat nr b) fun x M => x.rows.length = nr ∧ M = x.blocks nr b + L := by
  refine Owns.bind (owns_new fun t => Owns.bind ((newRows_owns nr b _).mono ?_))
  rintro l M ⟨h1, rfl⟩
  refine ⟨h1, ?_⟩
  unfold Mat.blocks
  rw [Multiset.add_cons, Multiset.cons_add]

/-- rows from `m` on are left -/
theorem delMat_owns (m nr b : ℕ) (x : Mat) (L : Heap) :
    Owns (x.blocks nr b + L) (delMat m x) fun _ M => M = rowBlocks b (x.rows.drop m) + L := by
  have e : x.blocks nr b + L = rowBlocks b (x.rows.take m) + (⟨x.top, .many, 8 * nr⟩ ::ₘ (rowBlocks b (x.rows.drop m) + L)) := by
    unfold Mat.blocks
    rw [Multiset.add_cons, Multiset.cons_add, ← add_assoc, ← rowBlocks_append, List.take_append_drop]
  rw [e]
  refine Owns.bind ((delRows_owns b _ _).mono ?_)
  rintro _ M rfl
  exact owns_del rfl

theorem delMat_all (nr b : ℕ) (x : Mat) (h : x.rows.length = nr) (L : Heap) :
    Owns (x.blocks nr b + L) (delMat nr x) fun _ M => M = L := by
  refine (delMat_owns nr nr b x L).mono ?_
  rintro _ M rfl
  rw [List.drop_of_length_le (by omega)]
  simp [rowBlocks]

/-! ## Species and bunches -/

/-- blocks of the rows of macroparticles -/
def tripleBlocks (l : List (ℕ × ℕ × ℕ)) : Heap :=
  ((l.flatMap fun t => [(⟨t.1, .many, 24⟩ : Block), ⟨t.2.1, .many, 24⟩, ⟨t.2.2, .many, 24⟩] : List Block) : Heap)

theorem tripleBlocks_cons (t : ℕ × ℕ × ℕ) (l : List (ℕ × ℕ × ℕ)) : tripleBlocks (t :: l) =
    ⟨t.1, .many, 24⟩ ::ₘ ⟨t.2.1, .many, 24⟩ ::ₘ ⟨t.2.2, .many, 24⟩ ::ₘ tripleBlocks l := rfl

/-- blocks of a species or bunch -/
def PartPtr.blocks (x : PartPtr) : Heap :=
  ⟨x.mass, .many, 8 * x.number⟩ ::ₘ ⟨x.charge, .many, 8 * x.number⟩ ::ₘ ⟨x.vel, .many, 8 * x.number⟩ ::ₘ
  ⟨x.pos, .many, 8 * x.number⟩ ::ₘ ⟨x.old, .many, 8 * x.number⟩ ::ₘ ⟨x.alive, .many, x.number⟩ ::ₘ
  ⟨x.sinT, .many, 8 * x.number⟩ ::ₘ ⟨x.cosT, .many, 8 * x.number⟩ ::ₘ tripleBlocks x.rows

theorem newPartRows_owns (n : ℕ) : ∀ L : Heap, Owns L (newPartRows n) fun l M => l.length = n ∧ M = tripleBlocks l + L := by
  induction n with
  | zero => exact fun L => ⟨rfl, by simp [tripleBlocks]⟩
  | succ n ih =>
    intro L
    refine Owns.bind (owns_new fun v => Owns.bind (owns_new fun p => Owns.bind (owns_new fun o => ?_)))
    refine Owns.bind ((ih _).mono ?_)
    rintro l M ⟨h1, rfl⟩
    refine ⟨by simp [h1], ?_⟩
    rw [tripleBlocks_cons]
    simp only [← Multiset.singleton_add]
    abel

theorem newPart_owns (n : ℕ) (L : Heap) :
    Owns L (newPart n) fun x M => x.number = n ∧ x.rows.length = n ∧ M = x.blocks + L := by
  refine Owns.bind (owns_new fun _ => Owns.bind (owns_new fun _ => Owns.bind (owns_new fun _ => Owns.bind (owns_new fun _ => ?_))))
  refine Owns.bind (owns_new fun _ => Owns.bind (owns_new fun _ => Owns.bind (owns_new fun _ => Owns.bind (owns_new fun _ => ?_))))
  refine Owns.bind ((newPartRows_owns n _).mono ?_)
  rintro l M ⟨h1, rfl⟩
  refine ⟨rfl, h1, ?_⟩
  unfold PartPtr.blocks
  simp only [← Multiset.singleton_add]
  abel

theorem delPartRows_owns (l : List (ℕ × ℕ × ℕ)) (L : Heap) :
    Owns (tripleBlocks l + L) (delPartRows l) fun _ M => M = L := by
  induction l with
  | nil => simp [tripleBlocks, delPartRows, Owns.pure]
  | cons t l ih =>
    obtain ⟨v, p, o⟩ := t
    have e : tripleBlocks ((v, p, o) :: l) + L =
        ⟨p, .many, 24⟩ ::ₘ ⟨o, .many, 24⟩ ::ₘ ⟨v, .many, 24⟩ ::ₘ (tripleBlocks l + L) := by
      rw [tripleBlocks_cons]
      simp only [← Multiset.singleton_add]
      abel
    rw [e]
    exact Owns.bind (owns_del (Owns.bind (owns_del (Owns.bind (owns_del ih)))))

theorem delPart_owns (x : PartPtr) (h : x.rows.length = x.number) (L : Heap) :
    Owns (x.blocks + L) (delPart x) fun _ M => M = L := by
  have e : x.blocks + L = tripleBlocks x.rows + (⟨x.pos, .many, 8 * x.number⟩ ::ₘ ⟨x.old, .many, 8 * x.number⟩ ::ₘ
      ⟨x.vel, .many, 8 * x.number⟩ ::ₘ ⟨x.alive, .many, x.number⟩ ::ₘ ⟨x.mass, .many, 8 * x.number⟩ ::ₘ
      ⟨x.charge, .many, 8 * x.number⟩ ::ₘ ⟨x.sinT, .many, 8 * x.number⟩ ::ₘ ⟨x.cosT, .many, 8 * x.number⟩ ::ₘ L) := by
    unfold PartPtr.blocks
    simp only [← Multiset.singleton_add]
    abel
  rw [e]
  unfold delPart
  rw [List.take_of_length_le (by omega)]
  refine Owns.bind ((delPartRows_owns _ _).mono ?_)
  rintro _ M rfl
  refine Owns.bind (owns_del (Owns.bind (owns_del (Owns.bind (owns_del (Owns.bind (owns_del ?_)))))))
  exact Owns.bind (owns_del (Owns.bind (owns_del (Owns.bind (owns_del (owns_del rfl))))))

/-! ## Histories of objects -/

/-- blocks of an object -/
def Obj.blocks : Obj → Heap
  | .particles self size x => ⟨self, .one, size⟩ ::ₘ x.blocks
  | .mat self size nr nz x => ⟨self, .one, size⟩ ::ₘ x.blocks nr (8 * nz)

/-- as created -/
def Obj.Full : Obj → Prop
  | .particles _ _ x => x.rows.length = x.number
  | .mat _ _ nr _ x => x.rows.length = nr

theorem create_owns (s : ObjSpec) (L : Heap) : Owns L s.create fun o M => o.Full ∧ M = o.blocks + L := by
  cases s with
  | particles size number =>
    refine Owns.bind (owns_new fun self => Owns.bind ((newPart_owns number _).mono ?_))
    rintro x M ⟨h1, h2, rfl⟩
    refine ⟨h2.trans h1.symm, ?_⟩
    simp only [Obj.blocks, ← Multiset.singleton_add]
    abel
  | rho size nr nz =>
    refine Owns.bind (owns_new fun self => Owns.bind ((newMat_owns nr _ _).mono ?_))
    rintro x M ⟨h1, rfl⟩
    refine ⟨h1, ?_⟩
    simp only [Obj.blocks, ← Multiset.singleton_add]
    abel
  | dirichlet size nr nz =>
    refine Owns.bind (owns_new fun self => Owns.bind ((newMat_owns nr _ _).mono ?_))
    rintro x M ⟨h1, rfl⟩
    refine ⟨h1, ?_⟩
    simp only [Obj.blocks, ← Multiset.singleton_add]
    abel

theorem destroy_owns (o : Obj) (h : o.Full) (L : Heap) : Owns (o.blocks + L) o.destroy fun _ M => M = L := by
  cases o with
  | particles self size x =>
    have e : (Obj.particles self size x).blocks + L = x.blocks + (⟨self, .one, size⟩ ::ₘ L) := by
      simp only [Obj.blocks, ← Multiset.singleton_add]
      abel
    rw [e]
    refine Owns.bind ((delPart_owns x h _).mono ?_)
    rintro _ M rfl
    exact owns_del rfl
  | mat self size nr nz x =>
    have e : (Obj.mat self size nr nz x).blocks + L = x.blocks nr (8 * nz) + (⟨self, .one, size⟩ ::ₘ L) := by
      simp only [Obj.blocks, ← Multiset.singleton_add]
      abel
    rw [e]
    refine Owns.bind ((delMat_all nr _ x h _).mono ?_)
    rintro _ M rfl
    exact owns_del rfl

/-- **C104** (objects). Every history of creating and deleting species, bunches, charge densities and solvers is free of undefined
behaviour, can go on with any creation or deletion, and when all objects are deleted exactly the blocks of the start are in
use. -/
theorem C104_objects_partial (H0 H : Heap) (h0 : H0.Ok) (os : List Obj) (h : ObjRun H0 H os) :
    (os = [] → H = H0) ∧ (∀ s : ObjSpec, ¬ HFault s.create H ∧ ∃ o H', HRun s.create H o H') ∧
    ∀ o ∈ os, ¬ HFault o.destroy H ∧ ∃ H', HRun o.destroy H () H' := by
  have key : H = H0 + (os.map Obj.blocks).sum ∧ H.Ok ∧ ∀ o ∈ os, o.Full := by
    induction h with
    | start => simp [h0]
    | @create H os H' o s _ r ih =>
      obtain ⟨e, ok, hf⟩ := ih
      obtain ⟨L', e', ok', hfull, rfl⟩ := (create_owns s 0).run (B := H) (by simpa using ok) (by simpa using r)
      refine ⟨?_, ok', ?_⟩
      · rw [e', e, List.map_cons, List.sum_cons]
        abel
      · intro o' ho'
        rcases List.mem_cons.1 ho' with rfl | ho'
        exacts [hfull, hf o' ho']
    | @destroy H l r H' o _ d ih =>
      obtain ⟨e, ok, hf⟩ := ih
      have e2 : H = (H0 + (l.map Obj.blocks).sum + (r.map Obj.blocks).sum) + (o.blocks + 0) := by
        rw [e, List.map_append, List.sum_append, List.map_cons, List.sum_cons]
        abel
      rw [e2] at ok d
      obtain ⟨L', e', ok', rfl⟩ := (destroy_owns o (hf o (by simp)) 0).run ok d
      refine ⟨?_, ok', ?_⟩
      · rw [e', List.map_append, List.sum_append]
        abel
      · intro o' ho'
        apply hf
        rcases List.mem_append.1 ho' with h | h <;> simp [h]
  obtain ⟨e, ok, hf⟩ := key
  refine ⟨?_, ?_, ?_⟩
  · rintro rfl
    simpa using e
  · intro s
    have := create_owns s 0
    refine ⟨?_, ?_⟩
    · simpa using this.no_fault (B := H) (by simpa using ok)
    · simpa using this.exists_run (B := H)
  · intro o ho
    obtain ⟨l, r, rfl⟩ := List.append_of_mem ho
    have e2 : H = (H0 + (l.map Obj.blocks).sum + (r.map Obj.blocks).sum) + (o.blocks + 0) := by
      rw [e, List.map_append, List.sum_append, List.map_cons, List.sum_cons]
      abel
    have := destroy_owns o (hf o ho) 0
    rw [e2] at ok ⊢
    obtain ⟨⟨⟩, H', r⟩ := this.exists_run (B := H0 + (l.map Obj.blocks).sum + (r.map Obj.blocks).sum)
    exact ⟨this.no_fault ok, H', r⟩

end Verif
