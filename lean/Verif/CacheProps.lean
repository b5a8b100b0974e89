import Verif.Reader

/-!
# Reader cache (C35)
-/

namespace Verif

/-! ## Keys of different requests differ -/

theorem dec_injective : Function.Injective dec := by
  intro a b h
  have := congrArg (fun l => Nat.ofDigitChars 10 l 0) h
  simpa [dec] using this

theorem dec_digits (n : ℕ) : ∀ c ∈ dec n, c.isDigit = true := fun _ hc =>
  Nat.isDigit_of_mem_toDigits (by decide) (by decide) hc

/-- Two digit strings after a non-digit can be told apart. -/
theorem digits_suffix {x y s t : List Char} {c c' : Char} (hs : ∀ d ∈ s, d.isDigit = true)
    (ht : ∀ d ∈ t, d.isDigit = true) (hc : c.isDigit = false) (hc' : c'.isDigit = false)
    (h : x ++ c :: s = y ++ c' :: t) : x = y ∧ c = c' ∧ s = t := by
  have hr := congrArg List.reverse h
  simp only [List.reverse_append, List.reverse_cons, List.append_assoc, List.singleton_append] at hr
  have hs' : ∀ d ∈ s.reverse, d.isDigit = true := fun d hd => hs d (List.mem_reverse.1 hd)
  have ht' : ∀ d ∈ t.reverse, d.isDigit = true := fun d hd => ht d (List.mem_reverse.1 hd)
  have key : ∀ (u v p q : List Char), (∀ d ∈ u, d.isDigit = true) → (∀ d ∈ v, d.isDigit = true) →
      u ++ c :: p = v ++ c' :: q → u = v ∧ c = c' ∧ p = q := by
    intro u
    induction u with
    | nil =>
      intro v p q _ hv h
      cases v with
      | nil => simp at h; exact ⟨rfl, h⟩
      | cons d v =>
        simp only [List.nil_append, List.cons_append, List.cons.injEq] at h
        have := hv d (by simp)
        rw [← h.1, hc] at this; cases this
    | cons e u ih =>
      intro v p q hu hv h
      cases v with
      | nil =>
        simp only [List.nil_append, List.cons_append, List.cons.injEq] at h
        have := hu e (by simp)
        rw [h.1, hc'] at this; cases this
      | cons d v =>
        simp only [List.cons_append, List.cons.injEq] at h
        obtain ⟨h1, h2, h3⟩ := ih v p q (fun d hd => hu d (by simp [hd])) (fun d hd => hv d (by simp [hd])) h.2
        exact ⟨by rw [h.1, h1], h2, h3⟩
  obtain ⟨h1, h2, h3⟩ := key _ _ _ _ hs' ht' hr
  exact ⟨List.reverse_injective h3, h2, List.reverse_injective h1⟩

/-- A number after a fixed text that ends in a non-digit can be read off the end of the key. -/
theorem dec_suffix {x y w : List Char} {c : Char} {m n : ℕ} (hc : c.isDigit = false)
    (h : x ++ (w ++ [c]) ++ dec m = y ++ (w ++ [c]) ++ dec n) : x = y ∧ m = n := by
  have h' : (x ++ w) ++ c :: dec m = (y ++ w) ++ c :: dec n := by simpa using h
  obtain ⟨h1, _, h3⟩ := digits_suffix (dec_digits m) (dec_digits n) hc hc h'
  exact ⟨List.append_cancel_right h1, dec_injective h3⟩

/-- Requests whose key determines them. -/
def Req.Keyed : Req → Prop
  | .frame .. => True
  | .rowRange .. => True
  | .colRange .. => True
  | _ => False

/-- Requests that the cache serves right. -/
def Req.Sound : Req → Prop
  | .frame .. => True
  | .rowRange .. => True
  | _ => False

theorem Req.Sound.keyed {q : Req} (h : q.Sound) : q.Keyed := by
  cases q <;> trivial

/-- Only the request itself has the key of a keyed request. -/
theorem key_injective {p q : Req} (hq : q.Keyed) (h : p.key = q.key) : p = q := by
  have hnum : Txt.number = ['_', 'n', 'u', 'm', 'b', 'e', 'r'] ++ [':'] := rfl
  have hsh : Txt.shape = ['_', 's', 'h', 'a', 'p', 'e'] ++ [':'] := rfl
  have hfr : Txt.from_ = ['_', 'f', 'r', 'o', 'm'] ++ [':'] := rfl
  have hto : Txt.to_ = ['_', 't', 'o'] ++ [':'] := rfl
  have hd : (['-'] : List Char) = [] ++ ['-'] := rfl
  have first : p.key.head? = q.key.head? := by rw [h]
  cases q with
  | frame c' s0' s1' s2' s3' n' =>
    cases p with
    | frame c s0 s1 s2 s3 n =>
      simp only [Req.key] at h
      rw [hnum, hsh, hd] at h
      obtain ⟨h, e5⟩ := dec_suffix (by decide) h
      obtain ⟨h, e4⟩ := dec_suffix (by decide) h
      obtain ⟨h, e3⟩ := dec_suffix (by decide) h
      obtain ⟨h, e2⟩ := dec_suffix (by decide) h
      obtain ⟨h, e1⟩ := dec_suffix (by decide) h
      have := List.append_cancel_left h
      rw [this, e1, e2, e3, e4, e5]
    | _ => simp [Req.key, Txt.frame, Txt.row, Txt.mpframe, Txt.col, Txt.dot] at first
  | rowRange c' n' f' t' =>
    cases p with
    | rowRange c n f t =>
      simp only [Req.key] at h
      rw [hnum, hfr, hto] at h
      obtain ⟨h, e3⟩ := dec_suffix (by decide) h
      obtain ⟨h, e2⟩ := dec_suffix (by decide) h
      obtain ⟨h, e1⟩ := dec_suffix (by decide) h
      have := List.append_cancel_left h
      rw [this, e1, e2, e3]
    | _ => simp [Req.key, Txt.frame, Txt.row, Txt.mpframe, Txt.col, Txt.dot] at first
  | colRange c' n' f' t' =>
    cases p with
    | colRange c n f t =>
      simp only [Req.key] at h
      rw [hnum, hfr, hto] at h
      obtain ⟨h, e3⟩ := dec_suffix (by decide) h
      obtain ⟨h, e2⟩ := dec_suffix (by decide) h
      obtain ⟨h, e1⟩ := dec_suffix (by decide) h
      have := List.append_cancel_left h
      rw [this, e1, e2, e3]
    | _ => simp [Req.key, Txt.frame, Txt.row, Txt.mpframe, Txt.col, Txt.dot] at first
  | mpframe => exact hq.elim
  | dotRange => exact hq.elim

/-! ## Transparency -/

/-- Everything in the cache is what a read of a request with that key returned. -/
theorem cache_inv (nr nz : ℕ) (raw : Req → Option (List ℝ)) (history : List Req) :
    ∀ k v, cacheAfter nr nz raw history (fun _ => none) k = some v →
      ∃ q : Req, q.key = k ∧ raw q = some v := by
  have inv : ∀ (hist : List Req) (c : Cache),
      (∀ k v, c k = some v → ∃ q : Req, q.key = k ∧ raw q = some v) →
      ∀ k v, cacheAfter nr nz raw hist c k = some v → ∃ q : Req, q.key = k ∧ raw q = some v := by
    intro hist
    induction hist with
    | nil => intro c hc; exact hc
    | cons p hist ih =>
      intro c hc
      refine ih _ ?_
      intro k v hk
      unfold cachedRead at hk
      simp only at hk
      split_ifs at hk with h1
      · rcases hcs : p.cachedSize nr nz with _ | n
        · rw [hcs] at hk; exact hc k v hk
        · rw [hcs] at hk
          simp only at hk
          split_ifs at hk
          all_goals exact hc k v hk
      · rcases hr : raw p with _ | w
        · rw [hr] at hk; exact hc k v hk
        · rw [hr] at hk
          simp only at hk
          by_cases hkp : k = p.key
          · subst hkp
            rw [Function.update_self] at hk
            exact ⟨p, rfl, by rw [hr, ← hk]⟩
          · rw [Function.update_of_ne hkp] at hk; exact hc k v hk
  exact inv history (fun _ => none) (by simp)

/-- **C35** (partial) Frame and row-range reads: whatever was read before (of any kind, successfully
or not, in any number and order) starting from an empty cache, the read returns what it would return
without the cache. `hsize`: an uncached read has the size of the request (`C33`, `C34`).
Missing: the other reads, see the following theorems. -/
theorem C35_transparent_partial (nr nz : ℕ) (raw : Req → Option (List ℝ))
    (hsize : ∀ q v, raw q = some v → q.Sound → ∀ n, q.cachedSize nr nz = some n → v.length = n)
    (history : List Req) (q : Req) (hq : q.Sound) :
    (cachedRead nr nz raw q (cacheAfter nr nz raw history fun _ => none)).1 = raw q := by
  have hinv := cache_inv nr nz raw history
  unfold cachedRead
  simp only
  split_ifs with h1
  · rcases hc : cacheAfter nr nz raw history (fun _ => none) q.key with _ | v
    · simp [hc] at h1
    · obtain ⟨p, hpk, hpv⟩ := hinv _ _ hc
      have := key_injective hq.keyed hpk
      subst this
      simp only [Option.getD_some]
      rcases hcs : p.cachedSize nr nz with _ | n
      · simp [hpv]
      · simp [hsize p v hpv hq n hcs, hpv]
  · rcases hr : raw q with _ | w <;> rfl

/-- **C35** (partial) Frame, row-range and column-range reads never return data of another request: whatever
was read before, the read raises or returns what it would return without the cache. -/
theorem C35_never_wrong_partial (nr nz : ℕ) (raw : Req → Option (List ℝ)) (history : List Req) (q : Req)
    (hq : q.Keyed) (v : List ℝ)
    (hv : (cachedRead nr nz raw q (cacheAfter nr nz raw history fun _ => none)).1 = some v) :
    raw q = some v := by
  have hinv := cache_inv nr nz raw history
  unfold cachedRead at hv
  simp only at hv
  split_ifs at hv with h1
  · rcases hc : cacheAfter nr nz raw history (fun _ => none) q.key with _ | w
    · simp [hc] at h1
    · obtain ⟨p, hpk, hpv⟩ := hinv _ _ hc
      have := key_injective hq hpk
      subst this
      rw [hc, Option.getD_some] at hv
      rcases hcs : p.cachedSize nr nz with _ | n
      · rw [hcs] at hv; rw [hpv]; exact hv
      · rw [hcs] at hv
        simp only at hv
        split_ifs at hv
        rw [hpv]; exact hv
  · rcases hr : raw q with _ | w
    · rw [hr] at hv; cases hv
    · rw [hr] at hv; exact hv

/-- Not vacuous: the first read of a column range returns the data, after reads of other kinds too. -/
example : (cachedRead 2 2 (fun _ => some [1, 2]) (.colRange ['E'] 3 0 1)
    (cacheAfter 2 2 (fun _ => some [1, 2]) [.dotRange ['E'] 1 1 0 1] fun _ => none)).1 = some [1, 2] := by
  have : (Req.colRange ['E'] 3 0 1).key ≠ (Req.dotRange ['E'] 1 1 0 1).key := fun h =>
    Req.noConfusion (key_injective (q := .colRange ['E'] 3 0 1) trivial h.symm)
  simp [cacheAfter, cachedRead, Function.update_of_ne this]

/-- The hypotheses hold for a reader that returns data that depend on the request. -/
example : ∃ raw : Req → Option (List ℝ),
    (∀ q v, raw q = some v → q.Sound → ∀ n, q.cachedSize 4 8 = some n → v.length = n) ∧
    raw (.frame ['E'] 0 0 2 3 5) ≠ raw (.frame ['E'] 0 0 2 3 6) := by
  refine ⟨fun q => match q with
    | .frame _ s0 s1 s2 s3 n => some (List.replicate ((s2 - s0) * (s3 - s1)) (n : ℝ))
    | .rowRange _ _ f t => some (List.replicate ((t - f) * 8) 1)
    | _ => none, ?_, ?_⟩
  · intro q v hv hs n hn
    cases q <;> simp_all [Req.cachedSize, Req.Sound]
    · rw [← hv, List.length_replicate]
    · rw [← hv, List.length_replicate]
  · simp [List.replicate]

/-- A read after another read that is stored under the same key returns the data of the other. -/
theorem cached_collision (nr nz : ℕ) (raw : Req → Option (List ℝ)) (p q : Req) (hkey : p.key = q.key)
    (hns : q.cachedSize nr nz = none) (v : List ℝ) (hv : raw p = some v) (hne : v ≠ []) :
    (cachedRead nr nz raw q (cacheAfter nr nz raw [p] fun _ => none)).1 = some v := by
  simp [cacheAfter, cachedRead, hv, ← hkey, hne, hns]

/-- **C35** is violated by macroparticle reads: after one component has been read, every other component of
the same dump returns the data of the first. -/
theorem C35_mpframe_violated (nr nz : ℕ) (raw : Req → Option (List ℝ)) (c : List Char)
    (s0 s1 s2 s3 n m m' : ℕ) (v : List ℝ) (hv : raw (.mpframe c s0 s1 s2 s3 m n) = some v) (hne : v ≠ []) :
    (cachedRead nr nz raw (.mpframe c s0 s1 s2 s3 m' n)
      (cacheAfter nr nz raw [.mpframe c s0 s1 s2 s3 m n] fun _ => none)).1 = some v :=
  cached_collision nr nz raw (.mpframe c s0 s1 s2 s3 m n) (.mpframe c s0 s1 s2 s3 m' n) rfl rfl v hv hne

/-- **C35** is violated by dot ranges: the column of the dot is not part of the key. -/
theorem C35_dot_violated (nr nz : ℕ) (raw : Req → Option (List ℝ)) (c : List Char)
    (row col col' f t : ℕ) (v : List ℝ) (hv : raw (.dotRange c row col f t) = some v) (hne : v ≠ []) :
    (cachedRead nr nz raw (.dotRange c row col' f t)
      (cacheAfter nr nz raw [.dotRange c row col f t] fun _ => none)).1 = some v :=
  cached_collision nr nz raw (.dotRange c row col f t) (.dotRange c row col' f t) rfl rfl v hv hne

/-- **C35** is violated by column ranges: reading a non-empty range a second time raises. -/
theorem C35_col_second_read_violated (nr nz : ℕ) (hnr : 0 < nr) (raw : Req → Option (List ℝ)) (c : List Char)
    (n f t : ℕ) (hft : f < t) (v : List ℝ) (hv : raw (.colRange c n f t) = some v)
    (hlen : v.length = (t - f) * nr) :
    (cachedRead nr nz raw (.colRange c n f t)
      (cacheAfter nr nz raw [.colRange c n f t] fun _ => none)).1 = none := by
  have hne : v ≠ [] := by
    intro h; rw [h] at hlen
    have := Nat.mul_pos (show 0 < t - f by omega) hnr
    simp at hlen; omega
  have hl : v.length ≠ (t - f + 1) * nr := by rw [hlen, Nat.succ_mul]; omega
  simp [cacheAfter, cachedRead, hv, hne, Req.cachedSize, hl]

/-- **C35** is violated by a cache directory left by an earlier analysis of other results: the old data are
returned for the new results (nothing in the key or the lookup refers to the data file). -/
theorem C35_stale_violated (nr nz : ℕ) (raw raw' : Req → Option (List ℝ)) (c : List Char)
    (s0 s1 s2 s3 n : ℕ) (v : List ℝ) (hv : raw (.frame c s0 s1 s2 s3 n) = some v) (hne : v ≠ [])
    (hlen : v.length = (s2 - s0) * (s3 - s1)) :
    (cachedRead nr nz raw' (.frame c s0 s1 s2 s3 n)
      (cacheAfter nr nz raw [.frame c s0 s1 s2 s3 n] fun _ => none)).1 = some v := by
  simp [cacheAfter, cachedRead, hv, hne, Req.cachedSize, hlen]

end Verif
