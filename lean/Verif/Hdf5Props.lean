import Verif.Hdf5
import Verif.OutputProps

/-!
# Results kept in HDF5 (C83)
-/

namespace Verif

/-! ## Specification -/

/-- the first `r` rows and `z` columns of an array, as a table -/
noncomputable def tableOf (a : Grid) (r z : ℕ) : List (List ℝ) :=
  (List.range r).map fun i : ℕ => (List.range z).map fun j : ℕ => a i j

/-- The file holds `N` frames of the component, frame `s` being the table of `data s`, and nothing else of it. -/
structure HoldsFrames (f : H5File) (space : List Char) (N r z : ℕ) (data : ℕ → Grid) : Prop where
  count : f.members (h5Result ++ space) = N
  frame : ∀ s, f.get (h5Result ++ space, dec s) = if s < N then some (tableOf (data s) r z) else none

/-! ## Writing -/

theorem LegacyComp.name_injective : Function.Injective LegacyComp.name := by
  intro a b h; cases a <;> cases b <;> first | rfl | simp [LegacyComp.name] at h

/-- the entry of a component in the file -/
noncomputable def h5Entry (r z : ℕ) (vals : LegacyComp → Grid) (step : ℕ) (c : LegacyComp) :
    (List Char × List Char) × List (List ℝ) :=
  ((h5Result ++ c.name, dec step), tableOf (vals c) r z)

theorem lookup_append_none {α β} [BEq α] [LawfulBEq α] (k : α) : ∀ (l m : List (α × β)), (∀ e ∈ l, e.1 ≠ k) →
    (l ++ m).lookup k = m.lookup k
  | [], _, _ => rfl
  | (a, b) :: l, m, h => by
    have : (k == a) = false := beq_eq_false_iff_ne.2 fun e => h (a, b) (by simp) e.symm
    simp only [List.cons_append, List.lookup, this]
    exact lookup_append_none k l m fun e he => h e (by simp [he])

theorem lookup_none' {α β} [BEq α] [LawfulBEq α] (k : α) (l : List (α × β)) (h : ∀ e ∈ l, e.1 ≠ k) :
    l.lookup k = none := by
  have := lookup_append_none k l [] h
  simpa using this

theorem lookup_unique {α β} [BEq α] [LawfulBEq α] (k : α) (v : β) : ∀ (l : List (α × β)),
    (k, v) ∈ l → (∀ e ∈ l, e.1 = k → e.2 = v) → l.lookup k = some v
  | (a, b) :: l, hm, hu => by
    by_cases h : a = k
    · subst h
      have e : b = v := hu (a, b) (by simp) rfl
      simp [List.lookup, e]
    · have h' : (k == a) = false := beq_eq_false_iff_ne.2 fun e => h e.symm
      simp only [List.lookup, h']
      refine lookup_unique k v l ?_ fun e he => hu e (by simp [he])
      rcases List.mem_cons.1 hm with e | e
      · cases e; exact absurd rfl h
      · exact e

theorem h5OutData_new {stack : ℕ} {G : Geom} (hG : G.Valid) (hs : 8 * ((G.nr - 1) * (G.nz - 1)) ≤ stack)
    (f : H5File) (c : LegacyComp) (vals : LegacyComp → Grid) (step : ℕ) (hstep : step < 10 ^ 10)
    (hf : ∀ e ∈ f, e.1 ≠ (h5Result ++ c.name, dec step)) :
    h5OutData stack ⟨G.nr, G.nz⟩ f c.name (vals c) step (G.nr - 1) (G.nz - 1) =
      some (f ++ [h5Entry (G.nr - 1) (G.nz - 1) vals step c]) := by
  have h1 := hG.nr_ge
  have h2 := hG.nz_ge
  have hd := dec_length (by norm_num : 0 < 10) hstep
  have hn : c.name.length ≤ 8 := by cases c <;> decide
  unfold h5OutData dumpDataset h5Copy H5File.get
  rw [if_pos (by simp only [List.length_append, h5Result, List.length_cons, List.length_nil]; omega),
    if_pos ⟨by omega, by omega, hs, by dsimp only; omega, by dsimp only; omega⟩]
  simp only [Option.bind_some]
  rw [lookup_none' _ _ hf]
  rfl

theorem h5Dump_new {stack : ℕ} {G : Geom} (hG : G.Valid) (hs : 8 * ((G.nr - 1) * (G.nz - 1)) ≤ stack)
    (flags : LegacyComp → Bool) (vals : LegacyComp → Grid) (step : ℕ) (hstep : step < 10 ^ 10) :
    ∀ (cs : List LegacyComp) (f : H5File), cs.Nodup →
      (∀ e ∈ f, ∀ c ∈ cs, e.1 ≠ (h5Result ++ c.name, dec step)) →
      legacyDump (h5Out stack G) flags vals step cs f =
        some (f ++ (cs.filter flags).map (h5Entry (G.nr - 1) (G.nz - 1) vals step))
  | [], f, _, _ => by simp [legacyDump]
  | c :: cs, f, hn, hf => by
    rw [List.nodup_cons] at hn
    unfold legacyDump
    by_cases hc : flags c = true
    · rw [if_pos hc, h5Out, h5OutData_new hG hs f c vals step hstep fun e he => hf e he c (by simp), Option.bind_some,
        h5Dump_new hG hs flags vals step hstep cs _ hn.2, List.filter_cons_of_pos hc]
      · simp
      · intro e he c' hc'
        rcases List.mem_append.1 he with he | he
        · exact hf e he c' (by simp [hc'])
        · simp only [List.mem_singleton] at he
          subst he
          intro h
          simp only [h5Entry, Prod.mk.injEq, and_true] at h
          have := LegacyComp.name_injective (List.append_cancel_left h)
          subst this
          exact hn.1 hc'
    · rw [if_neg hc, h5Dump_new hG hs flags vals step hstep cs f hn.2 (fun e he c' hc' => hf e he c' (by simp [hc'])),
        List.filter_cons_of_neg hc]

/-- the contents of the file after `S` dumps -/
noncomputable def h5After (r z : ℕ) (flags : LegacyComp → Bool) (interval : ℕ) (vals : ℕ → LegacyComp → Grid) (S : ℕ) :
    H5File :=
  (List.range S).flatMap fun s : ℕ => (LegacyComp.all.filter flags).map (h5Entry r z (vals (s * interval)) s)

theorem mem_h5After {r z : ℕ} {flags : LegacyComp → Bool} {interval : ℕ} {vals : ℕ → LegacyComp → Grid} {S : ℕ} {e} :
    e ∈ h5After r z flags interval vals S ↔
      ∃ s < S, ∃ c, flags c = true ∧ e = h5Entry r z (vals (s * interval)) s c := by
  unfold h5After
  simp only [List.mem_flatMap, List.mem_range, List.mem_map, List.mem_filter]
  constructor
  · rintro ⟨s, hs, c, hc, rfl⟩; exact ⟨s, hs, c, hc.2, rfl⟩
  · rintro ⟨s, hs, c, hc, rfl⟩
    exact ⟨s, hs, c, ⟨by cases c <;> simp [LegacyComp.all], hc⟩, rfl⟩

/-- number of dumps in the first `k` iterations -/
def dumpsBefore (interval k : ℕ) : ℕ := (k + interval - 1) / interval

theorem dumpsBefore_succ {interval : ℕ} (hi : 0 < interval) (k : ℕ) :
    dumpsBefore interval (k + 1) = if k % interval = 0 then k / interval + 1 else dumpsBefore interval k := by
  unfold dumpsBefore
  have e := Nat.div_add_mod k interval
  have hm := Nat.mod_lt k hi
  obtain ⟨q, hq⟩ : ∃ q, q = k / interval := ⟨_, rfl⟩
  obtain ⟨m, hm'⟩ : ∃ m, m = k % interval := ⟨_, rfl⟩
  rw [← hq, ← hm'] at e
  rw [← hm'] at hm
  rw [← hq, ← hm']
  have a : (k + 1 + interval - 1) / interval = q + 1 := by
    have : k + 1 + interval - 1 = m + interval * (q + 1) := by rw [Nat.mul_add, Nat.mul_one]; omega
    rw [this, Nat.add_mul_div_left _ _ hi, Nat.div_eq_of_lt hm]; omega
  rw [a]
  split_ifs with h
  · rfl
  · have : k + interval - 1 = (m - 1) + interval * (q + 1) := by rw [Nat.mul_add, Nat.mul_one]; omega
    rw [this, Nat.add_mul_div_left _ _ hi, Nat.div_eq_of_lt (by omega)]; omega

theorem dumpsBefore_dump {interval : ℕ} (hi : 0 < interval) {k : ℕ} (h : k % interval = 0) :
    dumpsBefore interval k = k / interval := by
  unfold dumpsBefore
  have e := Nat.div_add_mod k interval
  obtain ⟨q, hq⟩ : ∃ q, q = k / interval := ⟨_, rfl⟩
  rw [← hq, h] at e
  rw [← hq]
  have : k + interval - 1 = (interval - 1) + interval * q := by omega
  rw [this, Nat.add_mul_div_left _ _ hi, Nat.div_eq_of_lt (by omega)]; omega

theorem lt_dumpsBefore {interval : ℕ} (hi : 0 < interval) (s k : ℕ) : s < dumpsBefore interval k ↔ s * interval < k := by
  unfold dumpsBefore
  rw [Nat.lt_iff_add_one_le, Nat.le_div_iff_mul_le hi, Nat.add_mul, Nat.one_mul]
  omega

theorem h5Run_eq {stack : ℕ} {G : Geom} (hG : G.Valid) (hs : 8 * ((G.nr - 1) * (G.nz - 1)) ≤ stack)
    (flags : LegacyComp → Bool) {interval : ℕ} (hi : 0 < interval) (vals : ℕ → LegacyComp → Grid) :
    ∀ (n k : ℕ), n + k ≤ 2 ^ 31 →
      h5Run stack G flags interval vals n k (dumpsBefore interval k)
        (h5After (G.nr - 1) (G.nz - 1) flags interval vals (dumpsBefore interval k)) =
      some (h5After (G.nr - 1) (G.nz - 1) flags interval vals (dumpsBefore interval (k + n)))
  | 0, k, _ => rfl
  | n + 1, k, h => by
    unfold h5Run legacyRun
    have ih := h5Run_eq hG hs flags hi vals n (k + 1) (by omega)
    have e : k + 1 + n = k + (n + 1) := by omega
    rw [e] at ih
    have hsucc := dumpsBefore_succ hi k
    split_ifs with hk
    · rw [if_pos hk] at hsucc
      have hd := dumpsBefore_dump hi hk
      rw [h5Dump_new hG hs flags (vals k) (dumpsBefore interval k) ?_ _ _ (by decide) ?_]
      · have hki : k / interval * interval = k := Nat.div_mul_cancel (Nat.dvd_of_mod_eq_zero hk)
        have : h5After (G.nr - 1) (G.nz - 1) flags interval vals (dumpsBefore interval k) ++
            (LegacyComp.all.filter flags).map (h5Entry (G.nr - 1) (G.nz - 1) (vals k) (dumpsBefore interval k)) =
            h5After (G.nr - 1) (G.nz - 1) flags interval vals (dumpsBefore interval k + 1) := by
          unfold h5After
          rw [List.range_succ, List.flatMap_append, hd]
          simp [hki]
        rw [Option.bind_some, this, hd, ← hsucc]
        exact ih
      · rw [hd]
        exact lt_of_le_of_lt (Nat.div_le_self _ _) (by omega)
      · intro x hx c _
        obtain ⟨s, hs', c', -, rfl⟩ := mem_h5After.1 hx
        intro heq
        simp only [h5Entry, Prod.mk.injEq] at heq
        have := dec_injective heq.2
        omega
    · rw [if_neg hk] at hsucc
      rw [hsucc] at ih
      exact ih

theorem h5After_members (r z : ℕ) (flags : LegacyComp → Bool) (interval : ℕ) (vals : ℕ → LegacyComp → Grid)
    (c : LegacyComp) : ∀ S : ℕ,
    (h5After r z flags interval vals S).members (h5Result ++ c.name) = if flags c then S else 0
  | 0 => by simp [h5After, H5File.members]
  | S + 1 => by
    have ih := h5After_members r z flags interval vals c S
    unfold h5After H5File.members at *
    rw [List.range_succ, List.flatMap_append, List.filter_append, List.length_append, ih]
    have : ((LegacyComp.all.filter flags).map (h5Entry r z (vals (S * interval)) S)).filter
        (fun e => decide (e.1.1 = h5Result ++ c.name)) =
        ((LegacyComp.all.filter flags).filter (fun c' => decide (c' = c))).map (h5Entry r z (vals (S * interval)) S) := by
      rw [List.filter_map]
      congr 1
      apply List.filter_congr
      intro c' _
      simp only [Function.comp_apply, h5Entry, List.append_cancel_left_eq, LegacyComp.name_injective.eq_iff]
    simp only [List.flatMap_cons, List.flatMap_nil, List.append_nil]
    rw [this, List.length_map, List.filter_filter]
    have : (LegacyComp.all.filter fun a => decide (a = c) && flags a).length = if flags c then 1 else 0 := by
      have e : LegacyComp.all.filter (fun a => decide (a = c) && flags a) =
          LegacyComp.all.filter (fun a => decide (a = c) && flags c) := by
        apply List.filter_congr
        intro a _
        by_cases h : a = c
        · subst h; rfl
        · simp [h]
      rw [e]
      cases hfc : flags c
      · simp
      · cases c <;> rfl
    rw [this]
    split_ifs <;> rfl

/-- **C83**, writing: a run with HDF5 comes to its end without a fault, and then the file holds for every component that
was asked for the frames `0, 1, …`, frame `s` being the component in iteration `s · interval`, and nothing of the others;
one row and one column are missing from each frame. -/
theorem C83_run (stack : ℕ) (G : Geom) (hG : G.Valid) (hs : 8 * ((G.nr - 1) * (G.nz - 1)) ≤ stack)
    (flags : LegacyComp → Bool) (interval : ℕ) (hi : 0 < interval) (vals : ℕ → LegacyComp → Grid) (n : ℕ)
    (hn : n ≤ 2 ^ 31) :
    ∃ f N, h5Run stack G flags interval vals n 0 0 h5Create = some f ∧
      (∀ s, s < N ↔ s * interval < n) ∧
      (∀ c, flags c = true →
        HoldsFrames f c.name N (G.nr - 1) (G.nz - 1) fun s => vals (s * interval) c) ∧
      ∀ c, flags c = false → HoldsFrames f c.name 0 (G.nr - 1) (G.nz - 1) fun s => vals (s * interval) c := by
  have h0 : dumpsBefore interval 0 = 0 := by
    unfold dumpsBefore; exact Nat.div_eq_of_lt (by omega)
  have h := h5Run_eq hG hs flags hi vals n 0 (by omega)
  rw [h0, Nat.zero_add] at h
  refine ⟨_, dumpsBefore interval n, h, fun s => lt_dumpsBefore hi s n, ?_, ?_⟩
  · intro c hc
    constructor
    · rw [h5After_members, if_pos hc]
    · intro s
      unfold H5File.get
      split_ifs with hlt
      · apply lookup_unique
        · exact mem_h5After.2 ⟨s, hlt, c, hc, rfl⟩
        · intro e he hk
          obtain ⟨s', _, c', _, rfl⟩ := mem_h5After.1 he
          simp only [h5Entry, Prod.mk.injEq] at hk ⊢
          have := dec_injective hk.2
          subst this
          have := LegacyComp.name_injective (List.append_cancel_left hk.1)
          subst this
          rfl
      · apply lookup_none'
        intro e he hk
        obtain ⟨s', hs', c', _, rfl⟩ := mem_h5After.1 he
        simp only [h5Entry, Prod.mk.injEq] at hk
        have := dec_injective hk.2
        omega
  · intro c hc
    constructor
    · rw [h5After_members, if_neg (by simp [hc])]
    · intro s
      rw [if_neg (by omega)]
      unfold H5File.get
      apply lookup_none'
      intro e he hk
      obtain ⟨s', _, c', hc', rfl⟩ := mem_h5After.1 he
      simp only [h5Entry, Prod.mk.injEq] at hk
      have := LegacyComp.name_injective (List.append_cancel_left hk.1)
      subst this
      rw [hc] at hc'
      cases hc'

/-- **C83 is violated** on large grids: each frame is first copied to the stack; if it does not fit there, the run faults
with its first dump. -/
theorem C83_stack_violated (stack : ℕ) (G : Geom) (hs : stack < 8 * ((G.nr - 1) * (G.nz - 1)))
    (flags : LegacyComp → Bool) (hf : ∃ c, flags c = true) (interval : ℕ)
    (vals : ℕ → LegacyComp → Grid) (n : ℕ) (hn : 0 < n) :
    h5Run stack G flags interval vals n 0 0 h5Create = none := by
  have key : ∀ (cs : List LegacyComp) (f : H5File), (∃ c ∈ cs, flags c = true) →
      legacyDump (h5Out stack G) flags (vals 0) 0 cs f = none := by
    intro cs
    induction cs with
    | nil => rintro f ⟨c, hc, -⟩; simp at hc
    | cons c cs ih =>
      rintro f ⟨c', hc', hfl⟩
      unfold legacyDump
      split_ifs with h
      · have : h5Out stack G c (vals 0 c) 0 f = none := by
          unfold h5Out h5OutData dumpDataset h5Copy
          split_ifs <;> first | rfl | (exfalso; omega)
        rw [this]; rfl
      · apply ih
        rcases List.mem_cons.1 hc' with rfl | hc'
        · exact absurd hfl h
        · exact ⟨c', hc', hfl⟩
  obtain ⟨n, rfl⟩ : ∃ m, n = m + 1 := ⟨n - 1, by omega⟩
  unfold h5Run legacyRun
  obtain ⟨c, hc⟩ := hf
  rw [if_pos (Nat.zero_mod _), key _ _ ⟨c, by cases c <;> simp [LegacyComp.all], hc⟩]
  rfl

/-- **C83 is violated** for the place of the file: if the result path has no slash at its end, the file is not in the
result directory, where the tools keep theirs, but beside it. -/
theorem C83_place_violated (path name : List Char) (hp : path.getLast? ≠ some '/') (h : h5Name path = some name) :
    ¬ ∃ file, name = path ++ '/' :: file ∨ (path.getLast? = some '/' ∧ name = path ++ file) := by
  rintro ⟨file, rfl | ⟨h', -⟩⟩
  · unfold h5Name at h
    dsimp only at h
    split_ifs at h
    simp at h
  · exact hp h'

/-! ## Reading -/

section Read

variable {f : H5File} {space : List Char} {N r z : ℕ} {data : ℕ → Grid}

theorem HoldsFrames.open_ok (h : HoldsFrames f space N r z data) {k : ℤ} (h0 : 0 ≤ k) (hk : k < N) :
    h5Open f space k = .ok (tableOf (data k.toNat) r z) := by
  unfold h5Open
  rw [if_neg (by omega), h.frame, if_pos (by omega)]

theorem HoldsFrames.open_end (h : HoldsFrames f space N r z data) : h5Open f space N = .error .key := by
  unfold h5Open
  rw [if_neg (by omega), h.frame, if_neg (by omega)]

theorem HoldsFrames.count_ok (h : HoldsFrames f space N r z data) (hN : 0 < N) : h5Count f space = .ok N := by
  unfold h5Count
  rw [h.count, if_neg (by omega)]

theorem HoldsFrames.check_ok (h : HoldsFrames f space N r z data) (hN : 0 < N) {k : ℤ} (h0 : 0 ≤ k) (hk : k ≤ N) :
    checkFrame f space k = .ok () := by
  unfold checkFrame
  rw [if_neg (by omega), h.count_ok hN]
  show (if (N : ℤ) < k then _ else _) = _
  rw [if_neg (by omega)]

theorem HoldsFrames.checkRow_ok (h : HoldsFrames f space N r z data) (hN : 0 < N) {i : ℤ} (h0 : 0 ≤ i) (hi : i ≤ r) :
    checkRow f space i = .ok () := by
  unfold checkRow
  rw [if_neg (by omega), h.open_ok le_rfl (by omega)]
  show (if ((tableOf (data 0) r z).length : ℤ) < i then _ else _) = _
  rw [if_neg (by simp only [tableOf, List.length_map, List.length_range]; omega)]

theorem tableOf_index (a : Grid) (r z : ℕ) {i : ℤ} (h0 : 0 ≤ i) (hi : i < r) :
    h5Index (tableOf a r z) i = .ok ((List.range z).map fun j : ℕ => a i j) := by
  unfold h5Index tableOf
  rw [List.getElem?_map, List.getElem?_range (by omega)]
  simp only [Option.map_some]
  have : ((i.toNat : ℕ) : ℤ) = i := by omega
  rw [this]

theorem row_index (a : Grid) (z : ℕ) (i : ℤ) {j : ℤ} (h0 : 0 ≤ j) (hj : j < z) :
    h5Index ((List.range z).map fun j : ℕ => a i j) j = .ok (a i j) := by
  unfold h5Index
  rw [List.getElem?_map, List.getElem?_range (by omega)]
  simp only [Option.map_some]
  have : ((j.toNat : ℕ) : ℤ) = j := by omega
  rw [this]

theorem HoldsFrames.checkCol_ok (h : HoldsFrames f space N r z data) (hN : 0 < N) (hr : 0 < r) {j : ℤ} (h0 : 0 ≤ j)
    (hj : j ≤ z) : checkCol f space j = .ok () := by
  unfold checkCol
  rw [if_neg (by omega), h.open_ok le_rfl (by omega)]
  show (h5Index (tableOf (data 0) r z) 0 >>= _) = _
  rw [tableOf_index _ r z le_rfl (by omega)]
  show (if (((List.range z).map fun j : ℕ => data 0 0 j).length : ℤ) < j then _ else _) = _
  rw [if_neg (by simp only [List.length_map, List.length_range]; omega)]

theorem mapM_except {α β ε} (g : α → Except ε β) (v : α → β) : ∀ l : List α, (∀ x ∈ l, g x = .ok (v x)) →
    l.mapM g = .ok (l.map v)
  | [], _ => rfl
  | x :: l, h => by
    rw [List.mapM_cons, h x (by simp), mapM_except g v l fun y hy => h y (by simp [hy])]
    rfl

theorem tableOf_col (a : Grid) (r z : ℕ) {j : ℤ} (h0 : 0 ≤ j) (hj : j < z) :
    h5ColOf (tableOf a r z) j = .ok ((List.range r).map fun i : ℕ => a i j) := by
  unfold h5ColOf tableOf
  rw [List.mapM_map]
  exact mapM_except _ (fun i : ℕ => a i j) _ fun i _ => row_index a z i h0 hj

theorem mem_pyRange {a b x : ℤ} : x ∈ pyRange a b ↔ a ≤ x ∧ x ≤ b := by
  unfold pyRange
  simp only [List.mem_map, List.mem_range]
  constructor
  · rintro ⟨k, hk, rfl⟩; omega
  · rintro ⟨h1, h2⟩; exact ⟨(x - a).toNat, by omega, by omega⟩

theorem pyRange_eq {a b : ℕ} (h : a ≤ b) : pyRange a b = (List.range (b + 1 - a)).map fun k : ℕ => ((a + k : ℕ) : ℤ) := by
  unfold pyRange
  have : ((b : ℤ) + 1 - a).toNat = b + 1 - a := by omega
  rw [this]
  apply List.map_congr_left
  intro k _
  push_cast; rfl

theorem HoldsFrames.range_ok {α} (h : HoldsFrames f space N r z data) (hN : 0 < N) (check : Except H5Err Unit)
    (hc : check = .ok ()) (pick : List (List ℝ) → Except H5Err α) (v : ℕ → α)
    (hp : ∀ s, pick (tableOf (data s) r z) = .ok (v s)) (a : ℕ) (t : Option ℤ) (b : ℕ)
    (hb : orDefault t ((r : ℤ) - 1) = b) (hab : a ≤ b) (hbN : b < N) :
    h5Range f space check pick a t = .ok ((List.range (b + 1 - a)).map fun k : ℕ => v (a + k)) := by
  unfold h5Range
  rw [h.open_ok le_rfl (by omega)]
  show (checkFrameRange f space a (orDefault t ((tableOf (data 0) r z).length - 1)) >>= fun _ => check >>= fun _ =>
    (pyRange a (orDefault t ((tableOf (data 0) r z).length - 1))).mapM (m := Except H5Err)
      (fun i => h5Open f space i >>= pick)) = _
  have hl : ((tableOf (data 0) r z).length : ℤ) = r := by simp [tableOf]
  rw [hl, hb]
  unfold checkFrameRange
  rw [if_neg (by omega), if_neg (by omega), h.check_ok hN (by omega) (by omega)]
  show (check >>= _) = _
  rw [hc]
  show (pyRange a b).mapM (m := Except H5Err) (fun i => h5Open f space i >>= pick) = _
  rw [pyRange_eq hab, List.mapM_map]
  apply mapM_except _ (fun k : ℕ => v (a + k))
  intro k hk
  have hk := List.mem_range.1 hk
  show (h5Open f space ((a + k : ℕ) : ℤ) >>= pick) = _
  rw [h.open_ok (by omega) (by omega)]
  exact hp _

theorem HoldsFrames.frameRange_ok (h : HoldsFrames f space N r z data) (hN : 0 < N) (hr : 0 < r) (a : ℕ) (t : Option ℤ)
    (b : ℕ) (hb : orDefault t ((N : ℤ) - 1) = b) (hab : a ≤ b) (hbN : b < N) :
    h5FrameRange f space a t = .ok ((List.range (b + 1 - a)).map fun k : ℕ => tableOf (data (a + k)) r z) := by
  unfold h5FrameRange
  rw [h.open_ok le_rfl (by omega)]
  show (h5Index (tableOf (data 0) r z) 0 >>= _) = _
  rw [tableOf_index _ r z le_rfl (by omega)]
  show (h5Count f space >>= _) = _
  rw [h.count_ok hN]
  show (checkFrameRange f space a (orDefault t ((N : ℤ) - 1)) >>= _) = _
  rw [hb]
  unfold checkFrameRange
  rw [if_neg (by omega), if_neg (by omega), h.check_ok hN (by omega) (by omega)]
  show (pyRange a b).mapM _ = _
  rw [pyRange_eq hab, List.mapM_map]
  apply mapM_except _ (fun k : ℕ => tableOf (data (a + k)) r z)
  intro k hk
  have hk := List.mem_range.1 hk
  show (h5Open f space ((a + k : ℕ) : ℤ) >>= h5Fit _ _) = _
  rw [h.open_ok (by omega) (by omega)]
  show h5Fit _ _ _ = _
  unfold h5Fit
  rw [if_pos]
  · rfl
  · refine ⟨by simp [tableOf], ?_⟩
    intro x hx
    unfold tableOf at hx
    rw [List.mem_map] at hx
    obtain ⟨i, _, rfl⟩ := hx
    simp

end Read

/-- **C83**, reading (partial): all requests of the reader for what is in the file give exactly that, with the last frame
of a range given and not 0. -/
theorem C83_read_partial (f : H5File) (space : List Char) (N r z : ℕ) (data : ℕ → Grid)
    (h : HoldsFrames f space N r z data) (k row col : ℕ) (hk : k < N) (hrow : row < r) (hcol : col < z) :
    h5Frame f space k = .ok (tableOf (data k) r z) ∧
    h5Row f space k row = .ok ((List.range z).map fun j : ℕ => data k row j) ∧
    h5Col f space k col = .ok ((List.range r).map fun i : ℕ => data k i col) ∧
    h5Point f space k row col = .ok (data k row col) ∧
    ∀ a b : ℕ, a ≤ b → b < N → b ≠ 0 →
      h5FrameRange f space a (some b) = .ok ((List.range (b + 1 - a)).map fun i : ℕ => tableOf (data (a + i)) r z) ∧
      h5RangeRow f space row a (some b) =
        .ok ((List.range (b + 1 - a)).map fun i : ℕ => (List.range z).map fun j : ℕ => data (a + i) row j) ∧
      h5RangeCol f space col a (some b) =
        .ok ((List.range (b + 1 - a)).map fun i : ℕ => (List.range r).map fun j : ℕ => data (a + i) j col) ∧
      h5RangeDot f space row col a (some b) = .ok ((List.range (b + 1 - a)).map fun i : ℕ => data (a + i) row col) := by
  have hN : 0 < N := by omega
  have cf := h.check_ok hN (Int.natCast_nonneg k) (by omega)
  have cr := h.checkRow_ok hN (Int.natCast_nonneg row) (by omega)
  have cc := h.checkCol_ok hN (by omega) (Int.natCast_nonneg col) (by omega)
  have op := h.open_ok (Int.natCast_nonneg k) (by omega)
  have ri : ∀ s, h5Index (tableOf (data s) r z) (row : ℤ) = .ok ((List.range z).map fun j : ℕ => data s row j) :=
    fun s => tableOf_index _ r z (by omega) (by omega)
  have ci : ∀ s, h5Index ((List.range z).map fun j : ℕ => data s row j) (col : ℤ) = .ok (data s row col) :=
    fun s => row_index _ z _ (by omega) (by omega)
  have co : ∀ s, h5ColOf (tableOf (data s) r z) (col : ℤ) = .ok ((List.range r).map fun i : ℕ => data s i col) :=
    fun s => tableOf_col _ r z (by omega) (by omega)
  have kk : ((k : ℤ)).toNat = k := by omega
  rw [kk] at op
  refine ⟨?_, ?_, ?_, ?_, ?_⟩
  · unfold h5Frame; rw [cf]; exact op
  · unfold h5Row; rw [cf, cr, op]; exact ri k
  · unfold h5Col; rw [cf, cc, op]; exact co k
  · unfold h5Point
    rw [cf, cr, cc, op]
    show (h5Index (tableOf (data k) r z) (row : ℤ) >>= _) = _
    rw [ri]
    exact ci k
  · intro a b hab hbN hb
    have hd : ∀ d, orDefault (some (b : ℤ)) d = b := by
      intro d; unfold orDefault; dsimp only; rw [if_neg (by omega)]
    refine ⟨h.frameRange_ok hN (by omega) a _ b (hd _) hab hbN,
      h.range_ok hN _ cr (fun t => h5Index t row) (fun s => (List.range z).map fun j : ℕ => data s row j) ri a _ b (hd _)
        hab hbN,
      h.range_ok hN _ cc (fun t => h5ColOf t col) (fun s => (List.range r).map fun i : ℕ => data s i col) co a _ b (hd _)
        hab hbN,
      h.range_ok hN _ ?_ (fun t => h5Index t row >>= fun r => h5Index r col) (fun s => data s row col) ?_ a _ b (hd _)
        hab hbN⟩
    · rw [cr]; exact cc
    · intro s; rw [ri]; exact ci s

/-- **C83 is violated** for a range that ends with frame 0: the reader gives all frames instead of the first. -/
theorem C83_first_frame_violated (f : H5File) (space : List Char) (N r z : ℕ) (data : ℕ → Grid)
    (h : HoldsFrames f space N r z data) (hN : 2 ≤ N) (hr : 0 < r) :
    ∃ l, h5FrameRange f space 0 (some 0) = .ok l ∧ l.length = N ∧ 1 < l.length := by
  have := h.frameRange_ok (by omega) hr 0 (some 0) (N - 1) (by unfold orDefault; simp; omega) (by omega) (by omega)
  exact ⟨_, this, by simp; omega, by simp; omega⟩

/-- **C83 is violated** for ranges up to the end: without the number of the last frame a series of rows, columns or points
ends with the frame that has the number of the last row. Later frames are missing; and if there are less frames than rows
less one, the request fails. -/
theorem C83_default_violated (f : H5File) (space : List Char) (N r z : ℕ) (data : ℕ → Grid)
    (h : HoldsFrames f space N r z data) (hN : 0 < N) (row col : ℕ) (hrow : row < r) (hcol : col < z) :
    (r < N → h5RangeDot f space row col 0 none = .ok ((List.range r).map fun i : ℕ => data i row col)) ∧
    (N + 1 < r → h5RangeDot f space row col 0 none = .error .range) := by
  constructor
  · intro hlt
    have := h.range_ok hN (checkRow f space row >>= fun _ => checkCol f space col) (by
        rw [h.checkRow_ok hN (Int.natCast_nonneg row) (by omega)]
        exact h.checkCol_ok hN (by omega) (Int.natCast_nonneg col) (by omega))
      (fun t => h5Index t row >>= fun r => h5Index r col) (fun s => data s row col) (by
        intro s
        rw [tableOf_index _ r z (by omega) (by omega)]
        exact row_index _ z _ (by omega) (by omega)) 0 none (r - 1) (by unfold orDefault; dsimp only; omega) (by omega)
      (by omega)
    have e : r - 1 + 1 - 0 = r := by omega
    rw [e] at this
    simpa [h5RangeDot] using this
  · intro hlt
    unfold h5RangeDot h5Range
    rw [h.open_ok le_rfl (by omega)]
    show (checkFrameRange f space 0 (orDefault none ((tableOf (data 0) r z).length - 1)) >>= _) = _
    have hl : ((tableOf (data 0) r z).length : ℤ) = r := by simp [tableOf]
    rw [hl]
    have : checkFrameRange f space 0 (orDefault none ((r : ℤ) - 1)) = .error .range := by
      unfold checkFrameRange orDefault checkFrame
      dsimp only
      rw [if_neg (by omega), if_neg (by omega), if_neg (by omega), h.count_ok hN]
      show (if (N : ℤ) < _ then _ else _) = _
      rw [if_pos (by omega)]
    rw [this]
    rfl

/-- **C83 is violated** for the check of the arguments: the number one past the end passes the checks of frame, row and
column, and the request fails in the library. -/
theorem C83_end_violated (f : H5File) (space : List Char) (N r z : ℕ) (data : ℕ → Grid)
    (h : HoldsFrames f space N r z data) (hN : 0 < N) (hr : 0 < r) :
    checkFrame f space N = .ok () ∧ checkRow f space r = .ok () ∧ checkCol f space z = .ok () ∧
      h5Frame f space N = .error .key ∧ h5Row f space 0 r = .error .index := by
  have cf := h.check_ok hN (Int.natCast_nonneg N) le_rfl
  have cr := h.checkRow_ok hN (Int.natCast_nonneg r) le_rfl
  refine ⟨cf, cr, h.checkCol_ok hN hr (Int.natCast_nonneg z) le_rfl, ?_, ?_⟩
  · unfold h5Frame; rw [cf]; exact h.open_end
  · unfold h5Row
    rw [h.check_ok hN le_rfl (by omega), cr, h.open_ok le_rfl (by omega)]
    show h5Index (tableOf (data 0) r z) (r : ℤ) = _
    unfold h5Index
    rw [List.getElem?_eq_none (by simp [tableOf])]

/-- C83: the hypotheses are met by a run of 25 iterations on the shipped grid that dumps `E_r` every 10 iterations to a
stack of 8 MiB; its file holds three frames. -/
example : ∃ G : Geom, G.Valid ∧ 8 * ((G.nr - 1) * (G.nz - 1)) ≤ 8388608 ∧
    ∃ f, h5Run 8388608 G (fun c => c == .er) 10 (fun k _ i j => k + i + j) 25 0 0 h5Create = some f ∧
      HoldsFrames f LegacyComp.er.name 3 (G.nr - 1) (G.nz - 1) fun s i j => ((s * 10 : ℕ) : ℝ) + i + j := by
  obtain ⟨G, hG⟩ : ∃ G : Geom, G.Valid ∧ G.nr = 256 ∧ G.nz = 2048 :=
    ⟨⟨255, 2047, 256, 2048, 1, 1⟩, ⟨by norm_num, by norm_num, by norm_num, by norm_num, by norm_num, by norm_num⟩, rfl, rfl⟩
  obtain ⟨hv, hr, hz⟩ := hG
  have hs : 8 * ((G.nr - 1) * (G.nz - 1)) ≤ 8388608 := by rw [hr, hz]; norm_num
  obtain ⟨f, N, h1, h2, h3, -⟩ := C83_run 8388608 G hv hs (fun c => c == .er) 10 (by norm_num)
    (fun k _ i j => k + i + j) 25 (by norm_num)
  have hN : N = 3 := by
    have a := (h2 2).2 (by norm_num)
    have b : ¬ 3 < N := fun h => by have := (h2 3).1 h; omega
    omega
  subst hN
  exact ⟨G, hv, hs, f, h1, h3 .er rfl⟩

end Verif
