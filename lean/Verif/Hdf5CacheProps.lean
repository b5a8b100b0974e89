import Verif.Hdf5Cache
import Verif.Hdf5Props
import Verif.SessionProps

/-!
# C87: the cache of the HDF5 reader
-/

namespace Verif

/-! ## Specification -/

/-- What the reader gives without the cache (C83); a list of points is one row. -/
def h5Raw (f : H5File) : H5Req → Except H5Err (List (List ℝ))
  | .frame s n => h5Frame f s n
  | .row s r a last => h5RangeRow f s r a last
  | .col s c a last => h5RangeCol f s c a last
  | .dot s r c a last => h5RangeDot f s r c a last >>= fun l => .ok [l]

/-- All tables of the file have `r` rows of `z` numbers. -/
def Shaped (f : H5File) (r z : ℕ) : Prop := ∀ k t, f.get k = some t → t.length = r ∧ ∀ x ∈ t, x.length = z

/-! ## Lemmas -/

theorem except_bind_ok {ε α β} {x : Except ε α} {g : α → Except ε β} {b : β} (h : (x >>= g) = .ok b) :
    ∃ a, x = .ok a ∧ g a = .ok b := by
  cases x with
  | error e => cases h
  | ok a => exact ⟨a, rfl, h⟩

theorem checkFrame_nonneg {f : H5File} {s : List Char} {n : ℤ} {u : Unit} (h : checkFrame f s n = .ok u) : 0 ≤ n := by
  unfold checkFrame at h
  split_ifs at h with h0
  exact not_lt.1 h0

theorem checkRow_nonneg {f : H5File} {s : List Char} {n : ℤ} {u : Unit} (h : checkRow f s n = .ok u) : 0 ≤ n := by
  unfold checkRow at h
  split_ifs at h with h0
  exact not_lt.1 h0

theorem checkCol_nonneg {f : H5File} {s : List Char} {n : ℤ} {u : Unit} (h : checkCol f s n = .ok u) : 0 ≤ n := by
  unfold checkCol at h
  split_ifs at h with h0
  exact not_lt.1 h0

theorem checkFrameRange_nonneg {f : H5File} {s : List Char} {a b : ℤ} {u : Unit}
    (h : checkFrameRange f s a b = .ok u) : 0 ≤ a ∧ a ≤ b := by
  unfold checkFrameRange at h
  split_ifs at h with h0 h1
  exact ⟨not_lt.1 h1, not_lt.1 h0⟩

/-- Ranges of a final request are not empty. -/
def H5Final.Proper : H5Final → Prop
  | .frame _ _ => True
  | .row _ _ a b => a ≤ b
  | .col _ _ a b => a ≤ b
  | .dot _ _ _ a b => a ≤ b

theorem ok_bind {ε α β} (a : α) (g : α → Except ε β) : ((Except.ok a : Except ε α) >>= g) = g a := rfl

theorem error_bind {ε α β} (e : ε) (g : α → Except ε β) : ((Except.error e : Except ε α) >>= g) = .error e := rfl

/-- Without the cache: check, then fetch. -/
theorem h5Raw_eq (f : H5File) (q : H5Req) : h5Raw f q = (h5Check f q >>= h5Fetch f) := by
  cases q with
  | frame s n =>
    simp only [h5Raw, h5Frame, h5Check]
    rcases hc : checkFrame f s n with e | u
    · simp only [error_bind]
    · simp only [ok_bind, h5Fetch, Int.toNat_of_nonneg (checkFrame_nonneg hc)]
  | row s r a last =>
    simp only [h5Raw, h5RangeRow, h5Range, h5Check]
    rcases h5Open f s 0 with e | t0
    · simp only [error_bind]
    · simp only [ok_bind]
      rcases hr : checkFrameRange f s a (orDefault last ((t0.length : ℤ) - 1)) with e | u
      · simp only [error_bind]
      · simp only [ok_bind]
        rcases hc : checkRow f s r with e | u
        · simp only [error_bind]
        · obtain ⟨h1, h2⟩ := checkFrameRange_nonneg hr
          simp only [ok_bind, h5Fetch, Int.toNat_of_nonneg h1, Int.toNat_of_nonneg (checkRow_nonneg hc),
            Int.toNat_of_nonneg (h1.trans h2)]
  | col s c a last =>
    simp only [h5Raw, h5RangeCol, h5Range, h5Check]
    rcases h5Open f s 0 with e | t0
    · simp only [error_bind]
    · simp only [ok_bind]
      rcases hr : checkFrameRange f s a (orDefault last ((t0.length : ℤ) - 1)) with e | u
      · simp only [error_bind]
      · simp only [ok_bind]
        rcases hc : checkCol f s c with e | u
        · simp only [error_bind]
        · obtain ⟨h1, h2⟩ := checkFrameRange_nonneg hr
          simp only [ok_bind, h5Fetch, Int.toNat_of_nonneg h1, Int.toNat_of_nonneg (checkCol_nonneg hc),
            Int.toNat_of_nonneg (h1.trans h2)]
  | dot s r c a last =>
    simp only [h5Raw, h5RangeDot, h5Range, h5Check]
    rcases h5Open f s 0 with e | t0
    · simp only [error_bind]
    · simp only [ok_bind]
      rcases hr : checkFrameRange f s a (orDefault last ((t0.length : ℤ) - 1)) with e | u
      · simp only [error_bind]
      · simp only [ok_bind]
        rcases hc : checkRow f s r with e | u
        · simp only [error_bind]
        · simp only [ok_bind]
          rcases hd : checkCol f s c with e | u
          · simp only [error_bind]
          · obtain ⟨h1, h2⟩ := checkFrameRange_nonneg hr
            simp only [ok_bind, h5Fetch, Int.toNat_of_nonneg h1, Int.toNat_of_nonneg (checkRow_nonneg hc),
              Int.toNat_of_nonneg (checkCol_nonneg hd), Int.toNat_of_nonneg (h1.trans h2)]

theorem h5Check_proper {f : H5File} {q : H5Req} {p : H5Final} (h : h5Check f q = .ok p) : p.Proper := by
  cases q with
  | frame s n =>
    obtain ⟨_, -, h⟩ := except_bind_ok h
    cases h
    trivial
  | row s r a last =>
    obtain ⟨t0, -, h⟩ := except_bind_ok h
    obtain ⟨_, hr, h⟩ := except_bind_ok h
    obtain ⟨_, -, h⟩ := except_bind_ok h
    cases h
    have := checkFrameRange_nonneg hr
    exact Int.toNat_le_toNat this.2
  | col s c a last =>
    obtain ⟨t0, -, h⟩ := except_bind_ok h
    obtain ⟨_, hr, h⟩ := except_bind_ok h
    obtain ⟨_, -, h⟩ := except_bind_ok h
    cases h
    have := checkFrameRange_nonneg hr
    exact Int.toNat_le_toNat this.2
  | dot s r c a last =>
    obtain ⟨t0, -, h⟩ := except_bind_ok h
    obtain ⟨_, hr, h⟩ := except_bind_ok h
    obtain ⟨_, -, h⟩ := except_bind_ok h
    cases h
    have := checkFrameRange_nonneg hr
    exact Int.toNat_le_toNat this.2

/-- Only the request itself has its key. -/
theorem h5Key_injective {p q : H5Final} (h : p.key = q.key) : p = q := by
  have hnum : Txt.number = ['_', 'n', 'u', 'm', 'b', 'e', 'r'] ++ [':'] := rfl
  have hfr : Txt.from_ = ['_', 'f', 'r', 'o', 'm'] ++ [':'] := rfl
  have hto : Txt.to_ = ['_', 't', 'o'] ++ [':'] := rfl
  have hro : Txt.rowSep = ['_', 'r', 'o', 'w'] ++ [':'] := rfl
  have hco : Txt.colSep = ['_', 'c', 'o', 'l'] ++ [':'] := rfl
  have first : p.key.head? = q.key.head? := by rw [h]
  cases q with
  | frame s' n' =>
    cases p with
    | frame s n =>
      simp only [H5Final.key] at h
      rw [hnum] at h
      obtain ⟨h, e1⟩ := dec_suffix (by decide) h
      rw [List.append_cancel_left h, e1]
    | _ => simp [H5Final.key] at first
  | row s' r' a' b' =>
    cases p with
    | row s r a b =>
      simp only [H5Final.key] at h
      rw [hnum, hfr, hto] at h
      obtain ⟨h, e1⟩ := dec_suffix (by decide) h
      obtain ⟨h, e2⟩ := dec_suffix (by decide) h
      obtain ⟨h, e3⟩ := dec_suffix (by decide) h
      rw [List.append_cancel_left h, e1, e2, e3]
    | _ => simp [H5Final.key] at first
  | col s' c' a' b' =>
    cases p with
    | col s c a b =>
      simp only [H5Final.key] at h
      rw [hnum, hfr, hto] at h
      obtain ⟨h, e1⟩ := dec_suffix (by decide) h
      obtain ⟨h, e2⟩ := dec_suffix (by decide) h
      obtain ⟨h, e3⟩ := dec_suffix (by decide) h
      rw [List.append_cancel_left h, e1, e2, e3]
    | _ => simp [H5Final.key] at first
  | dot s' r' c' a' b' =>
    cases p with
    | dot s r c a b =>
      simp only [H5Final.key] at h
      rw [hfr, hto, hro, hco] at h
      obtain ⟨h, e1⟩ := dec_suffix (by decide) h
      obtain ⟨h, e2⟩ := dec_suffix (by decide) h
      obtain ⟨h, e3⟩ := dec_suffix (by decide) h
      obtain ⟨h, e4⟩ := dec_suffix (by decide) h
      rw [List.append_cancel_left h, e1, e2, e3, e4]
    | _ => simp [H5Final.key] at first

theorem mapM_except_mem {ε α β} {g : α → Except ε β} {l : List α} {t : List β} (h : l.mapM g = .ok t) :
    t.length = l.length ∧ ∀ y ∈ t, ∃ x ∈ l, g x = .ok y := by
  induction l generalizing t with
  | nil =>
    cases h
    exact ⟨rfl, fun y hy => absurd hy List.not_mem_nil⟩
  | cons x l ih =>
    rw [List.mapM_cons] at h
    obtain ⟨y, hy, h⟩ := except_bind_ok h
    obtain ⟨ys, hys, h⟩ := except_bind_ok h
    cases h
    obtain ⟨i1, i2⟩ := ih hys
    refine ⟨by simp [i1], fun z hz => ?_⟩
    rcases List.mem_cons.1 hz with rfl | hz
    · exact ⟨x, List.mem_cons_self, hy⟩
    · obtain ⟨w, hw, e⟩ := i2 z hz
      exact ⟨w, List.mem_cons_of_mem _ hw, e⟩

theorem h5Open_shape {f : H5File} {r z : ℕ} (hf : Shaped f r z) {s : List Char} {n : ℤ} {t : List (List ℝ)}
    (h : h5Open f s n = .ok t) : t.length = r ∧ ∀ x ∈ t, x.length = z := by
  unfold h5Open at h
  split_ifs at h
  rcases hg : f.get (h5Result ++ s, dec n.toNat) with _ | t'
  · rw [hg] at h; cases h
  · rw [hg] at h
    cases h
    exact hf _ _ hg

theorem h5Index_mem {α} {t : List α} {i : ℤ} {x : α} (h : h5Index t i = .ok x) : x ∈ t := by
  unfold h5Index at h
  rcases hg : t[i.toNat]? with _ | y
  · rw [hg] at h; cases h
  · rw [hg] at h
    cases h
    exact List.mem_of_getElem? hg

theorem pyRange_length (a b : ℕ) (h : a ≤ b) : (pyRange a b).length = b - a + 1 := by
  unfold pyRange
  rw [List.length_map, List.length_range]
  omega

/-- What is fetched survives the way through the cache, if the shape is right. -/
theorem fetch_reshape {f : H5File} {r z : ℕ} (hf : Shaped f r z) {p : H5Final} (hp : p.Proper) {t : List (List ℝ)}
    (h : h5Fetch f p = .ok t) :
    match p.dims (r, z) with
    | some (a, b) => reshape a b t.flatten = some t
    | none => [t.flatten] = t := by
  cases p with
  | frame s n =>
    obtain ⟨h1, h2⟩ := h5Open_shape hf h
    show reshape r z t.flatten = some t
    rw [← h1]
    exact reshape_flatten z t h2
  | row s i a b =>
    obtain ⟨h1, h2⟩ := mapM_except_mem h
    rw [pyRange_length a b hp] at h1
    show reshape (b - a + 1) z t.flatten = some t
    rw [← h1]
    refine reshape_flatten z t fun y hy => ?_
    obtain ⟨x, -, e⟩ := h2 y hy
    obtain ⟨tt, e1, e2⟩ := except_bind_ok e
    exact (h5Open_shape hf e1).2 y (h5Index_mem e2)
  | col s i a b =>
    obtain ⟨h1, h2⟩ := mapM_except_mem h
    rw [pyRange_length a b hp] at h1
    show reshape (b - a + 1) r t.flatten = some t
    rw [← h1]
    refine reshape_flatten r t fun y hy => ?_
    obtain ⟨x, -, e⟩ := h2 y hy
    obtain ⟨tt, e1, e2⟩ := except_bind_ok e
    rw [(mapM_except_mem e2).1]
    exact (h5Open_shape hf e1).1
  | dot s i j a b =>
    obtain ⟨l, -, h⟩ := except_bind_ok h
    cases h
    show [[l].flatten] = [l]
    simp

/-- Everything in the cache is what a fetch for that key gives. -/
def H5CacheInv (f : H5File) (c : Cache) : Prop :=
  ∀ (p : H5Final) v, c p.key = some v → ∃ t, h5Fetch f p = .ok t ∧ v = t.flatten

theorem h5Cached_spec (shape : ℕ × ℕ) {f : H5File} {c : Cache} (hc : H5CacheInv f c) (q : H5Req) :
    H5CacheInv f (h5Cached shape f q c).2 ∧
    (Shaped f shape.1 shape.2 → (h5Cached shape f q c).1 = h5Raw f q) := by
  rw [h5Raw_eq]
  unfold h5Cached
  rcases hq : h5Check f q with e | p
  · exact ⟨hc, fun _ => rfl⟩
  · have hp := h5Check_proper hq
    simp only [ok_bind]
    by_cases hv : (c p.key).getD [] ≠ []
    · rw [if_pos hv]
      rcases hk : c p.key with _ | v
      · rw [hk] at hv; exact absurd rfl hv
      · obtain ⟨t, ht, rfl⟩ := hc p v hk
        simp only [Option.getD_some]
        constructor
        · rcases p.dims shape with _ | ⟨a, b⟩
          · exact hc
          · simp only
            rcases reshape a b t.flatten with _ | t' <;> exact hc
        · intro hs
          have := fetch_reshape (r := shape.1) (z := shape.2) hs hp ht
          rw [ht]
          rcases hd : p.dims shape with _ | ⟨a, b⟩
          · rw [show (shape.1, shape.2) = shape from rfl, hd] at this
            simp only at this ⊢
            rw [this]
          · rw [show (shape.1, shape.2) = shape from rfl, hd] at this
            simp only at this ⊢
            rw [this]
    · rw [if_neg hv]
      rcases ht : h5Fetch f p with e | t
      · exact ⟨hc, fun _ => rfl⟩
      · refine ⟨fun p' v hv' => ?_, fun _ => rfl⟩
        by_cases hk : p'.key = p.key
        · obtain rfl := h5Key_injective hk
          simp only [Function.update_self, Option.some.injEq] at hv'
          exact ⟨t, ht, hv'.symm⟩
        · simp only [Function.update_of_ne hk] at hv'
          exact hc p' v hv'

theorem h5CacheAfter_inv (shape : ℕ × ℕ) (f : H5File) (history : List H5Req) (c : Cache) (hc : H5CacheInv f c) :
    H5CacheInv f (h5CacheAfter shape f history c) := by
  induction history generalizing c with
  | nil => exact hc
  | cons q qs ih => exact ih _ (h5Cached_spec shape hc q).1

/-! ## Theorems -/

/-- **C87 (partial)** If the reader was given the shape of the data, a request with the cache on gives what it gives without
it, numbers, shape and exceptions, whatever was asked for before.
Missing: readers that were given another shape or none, see `C87_default_violated` and `C87_transposed_violated`. -/
theorem C87_transparent_partial (f : H5File) (r z : ℕ) (hf : Shaped f r z) (history : List H5Req) (q : H5Req) :
    (h5Cached (r, z) f q (h5CacheAfter (r, z) f history fun _ => none)).1 = h5Raw f q :=
  (h5Cached_spec (r, z) (h5CacheAfter_inv (r, z) f history _ fun _ _ h => by cases h) q).2 hf

/-- Asking twice for a frame -/
theorem twice (shape : ℕ × ℕ) (f : H5File) (s : List Char) (n : ℤ) (t : List (List ℝ)) (ht : h5Frame f s n = .ok t)
    (hne : t.flatten ≠ []) :
    (h5Cached shape f (.frame s n) (h5CacheAfter shape f [.frame s n] fun _ => none)).1 =
      match reshape shape.1 shape.2 t.flatten with
      | some t' => .ok t'
      | none => .error .index := by
  obtain ⟨u, hc, ho⟩ := except_bind_ok ht
  have hck : h5Check f (.frame s n) = .ok (.frame s n.toNat) := by
    simp only [h5Check, hc, ok_bind]
  have hfe : h5Fetch f (.frame s n.toNat) = .ok t := by
    simp only [h5Fetch, Int.toNat_of_nonneg (checkFrame_nonneg hc), ho]
  have hfirst : (h5Cached shape f (.frame s n) fun _ => none).2 =
      Function.update (fun _ => none) (H5Final.frame s n.toNat).key (some t.flatten) := by
    unfold h5Cached
    rw [hck]
    simp only [Option.getD_none, ne_eq, not_true_eq_false, if_false, hfe]
  rw [h5CacheAfter, h5CacheAfter, hfirst]
  unfold h5Cached
  rw [hck]
  simp only [Function.update_self, Option.getD_some]
  rw [if_pos hne]
  simp only [H5Final.dims]
  rcases reshape shape.1 shape.2 t.flatten with _ | t' <;> rfl

/-- **C87 violated: no shape.** A reader made with the cache on and the default shape raises an exception when a frame is asked for
the second time. -/
theorem C87_default_violated (f : H5File) (s : List Char) (n : ℤ) (t : List (List ℝ)) (ht : h5Frame f s n = .ok t)
    (hne : t.flatten ≠ []) :
    (h5Cached (0, 0) f (.frame s n) fun _ => none).1 = .ok t ∧
    (h5Cached (0, 0) f (.frame s n) (h5CacheAfter (0, 0) f [.frame s n] fun _ => none)).1 = .error .index := by
  constructor
  · obtain ⟨u, hc, ho⟩ := except_bind_ok ht
    unfold h5Cached
    simp only [h5Check, hc, ok_bind, Option.getD_none, ne_eq, not_true_eq_false, if_false, h5Fetch,
      Int.toNat_of_nonneg (checkFrame_nonneg hc), ho]
  · rw [twice _ _ _ _ _ ht hne]
    have : reshape 0 0 t.flatten = none := by
      unfold reshape
      rw [if_neg]
      rw [Nat.zero_mul]
      exact fun h => hne (List.length_eq_zero_iff.1 h)
    rw [this]

/-- **C87 violated: the wrong way round.** A reader that was given the shape the wrong way round gives a frame rightly the first
time, and the second time without a complaint with rows of the wrong length. -/
theorem C87_transposed_violated (f : H5File) (r z : ℕ) (hf : Shaped f r z) (hrz : r ≠ z) (s : List Char) (n : ℤ)
    (t : List (List ℝ)) (ht : h5Frame f s n = .ok t) (hne : t.flatten ≠ []) :
    ∃ t', (h5Cached (z, r) f (.frame s n) (h5CacheAfter (z, r) f [.frame s n] fun _ => none)).1 = .ok t' ∧ t' ≠ t := by
  rw [twice _ _ _ _ _ ht hne]
  obtain ⟨u, hc, ho⟩ := except_bind_ok ht
  obtain ⟨h1, h2⟩ := h5Open_shape hf ho
  have hl : t.flatten.length = r * z := by rw [← h1]; exact flatten_length z t h2
  refine ⟨chunk z r t.flatten, ?_, ?_⟩
  · have : reshape z r t.flatten = some (chunk z r t.flatten) := by
      unfold reshape
      rw [if_pos (by rw [hl, Nat.mul_comm])]
    rw [this]
  · intro e
    have := congrArg List.length e
    rw [h1] at this
    unfold chunk at this
    rw [List.length_map, List.length_range] at this
    exact hrz this.symm

/-- A file with one frame of one row and two numbers meets the hypotheses. -/
example : ∃ f : H5File, Shaped f 1 2 ∧ h5Frame f ['E'] 0 = .ok [[5, 7]] := by
  refine ⟨[((h5Result ++ ['E'], dec 0), [[5, 7]])], ?_, ?_⟩
  · intro k t h
    unfold H5File.get at h
    rw [List.lookup_cons] at h
    split at h
    · cases h
      exact ⟨rfl, by simp⟩
    · cases h
  · have h1 : h5Count [((h5Result ++ ['E'], dec 0), [[(5 : ℝ), 7]])] ['E'] = .ok 1 := by
      simp [h5Count, H5File.members]
    simp [h5Frame, checkFrame, h1, ok_bind, h5Open, H5File.get]

end Verif
