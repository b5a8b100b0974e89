import Verif.Reader
import Verif.ProbeProps

/-!
# Results are read back as written (C33, C34, C35)
-/

namespace Verif

/-! ## numpy facts -/

theorem pyIndex_nat {len a : ℕ} (h : a ≤ len) : pyIndex len (a : ℤ) = a := by
  unfold pyIndex; rw [if_neg (by omega)]; omega

theorem pyIndex_clamp {len a : ℕ} (h : len ≤ a) : pyIndex len (a : ℤ) = len := by
  unfold pyIndex; rw [if_neg (by omega)]; omega

theorem pySlice_nat {α} (l : List α) {a b : ℕ} (ha : a ≤ l.length) (hb : b ≤ l.length) :
    pySlice l (a : ℤ) (b : ℤ) = (l.drop a).take (b - a) := by
  unfold pySlice; rw [pyIndex_nat ha, pyIndex_nat hb]

theorem npAssign_nat {α} (buf src : List α) {a b : ℕ} (hb : b ≤ buf.length) (hab : a ≤ b)
    (hs : src.length = b - a) :
    npAssign buf (a : ℤ) (b : ℤ) src = some (buf.take a ++ src ++ buf.drop b) := by
  unfold npAssign
  simp only [pyIndex_nat hb, pyIndex_nat (hab.trans hb)]
  rw [if_pos hs, Nat.add_sub_cancel' hab]

theorem splice_length {α} (buf src : List α) {a b : ℕ} (hb : b ≤ buf.length) (hab : a ≤ b)
    (hs : src.length = b - a) : (buf.take a ++ src ++ buf.drop b).length = buf.length := by
  simp only [List.length_append, List.length_take, List.length_drop, hs]; omega

theorem splice_getElem? {α} (buf src : List α) {a b : ℕ} (hb : b ≤ buf.length) (hab : a ≤ b)
    (hs : src.length = b - a) (k : ℕ) :
    (buf.take a ++ src ++ buf.drop b)[k]? = if a ≤ k ∧ k < b then src[k - a]? else buf[k]? := by
  rcases lt_trichotomy k a with h | h | h
  · rw [if_neg (by omega), List.getElem?_append_left (by simp; omega),
      List.getElem?_append_left (by simp; omega), List.getElem?_take, if_pos h]
  all_goals
    by_cases hk : k < b
    · rw [if_pos ⟨by omega, hk⟩, List.getElem?_append_left (by simp; omega),
        List.getElem?_append_right (by simp; omega)]
      congr 1; simp; omega
    · rw [if_neg (by omega), List.getElem?_append_right (by simp; omega), List.getElem?_drop]
      congr 1; simp; omega

theorem chunk_flatten {α} (b : ℕ) (l : List (List α)) (h : ∀ r ∈ l, r.length = b) :
    chunk l.length b l.flatten = l := by
  induction l with
  | nil => rfl
  | cons x l ih =>
    have hx : x.length = b := h x (by simp)
    unfold chunk at ih ⊢
    rw [List.length_cons, List.range_succ_eq_map, List.map_cons, List.map_map, List.flatten_cons]
    congr 1
    · simp [← hx]
    · rw [← ih (fun r hr => h r (by simp [hr]))]
      rw [List.length_map, List.length_range]
      apply List.map_congr_left
      intro i _
      simp only [Function.comp_apply]
      rw [ih (fun r hr => h r (by simp [hr])), Nat.succ_mul, Nat.add_comm, ← hx, ← List.drop_drop, List.drop_left]

theorem flatten_length {α} (b : ℕ) (l : List (List α)) (h : ∀ r ∈ l, r.length = b) :
    l.flatten.length = l.length * b := by
  induction l with
  | nil => simp
  | cons x l ih =>
    rw [List.flatten_cons, List.length_append, ih (fun r hr => h r (by simp [hr])), h x (by simp),
      List.length_cons]
    ring

theorem reshape_flatten {α} (b : ℕ) (l : List (List α)) (h : ∀ r ∈ l, r.length = b) :
    reshape l.length b l.flatten = some l := by
  unfold reshape
  rw [if_pos (flatten_length b l h), chunk_flatten b l h]

/-! ## Files of a run -/

theorem drange_fileOf {c : ℕ} (hc : 0 < c) {recs : List (List ℝ)} {d : Dir}
    (hd : ∀ f, d f = fileOf c recs f) : drange d = (recs.length + c - 1) / c := by
  unfold drange
  have : {f | d f ≠ none} = ((Finset.range ((recs.length + c - 1) / c) : Finset ℕ) : Set ℕ) := by
    ext f
    simp only [Set.mem_ofPred_eq, hd, fileOf, Finset.coe_range, Set.mem_Iio]
    rw [Nat.lt_div_iff_mul_lt hc]
    have e : c * f = f * c := Nat.mul_comm _ _
    have e2 : recs.length + c - 1 - (c - 1) = recs.length := by omega
    split_ifs with h
    · simp only [ne_eq, reduceCtorEq, not_false_eq_true, true_iff]; omega
    · simp only [ne_eq, not_true_eq_false, false_iff]; omega
  rw [this, Set.ncard_coe_finset, Finset.card_range]

theorem lt_drange {c : ℕ} (hc : 0 < c) {recs : List (List ℝ)} {d : Dir}
    (hd : ∀ f, d f = fileOf c recs f) {f : ℕ} : f < drange d ↔ f * c < recs.length := by
  rw [drange_fileOf hc hd, Nat.lt_div_iff_mul_lt hc]
  have e2 : recs.length + c - 1 - (c - 1) = recs.length := by omega
  rw [e2]

/-- A complete file gives exactly its records. -/
theorem allInDs_complete {c : ℕ} (hc : 0 < c) {recs : List (List ℝ)} {d : Dir}
    (hd : ∀ f, d f = fileOf c recs f) {size : ℕ} (hsz : ∀ r ∈ recs, r.length = size) {i : ℕ}
    (h : (i + 1) * c ≤ recs.length) : allInDs d c size i = some ((recs.drop (i * c)).take c) := by
  have h' : i * c + c ≤ recs.length := by rw [Nat.succ_mul] at h; exact h
  unfold allInDs
  rw [if_neg (by have := (lt_drange hc hd (f := i)).2 (by omega); omega), hd, fileOf, if_pos (by omega),
    Option.bind_some]
  have hl : ((recs.drop (i * c)).take c).length = c := by simp; omega
  have hm : ∀ r ∈ (recs.drop (i * c)).take c, r.length = size :=
    fun r hr => hsz r (List.mem_of_mem_drop (List.mem_of_mem_take hr))
  have hfl := flatten_length size _ hm
  rw [hl] at hfl
  rw [List.take_of_length_le (by rw [hfl, Nat.mul_comm])]
  have := reshape_flatten size _ hm
  rwa [hl] at this

/-- An incomplete file cannot be read. -/
theorem allInDs_incomplete {c : ℕ} {recs : List (List ℝ)} {d : Dir}
    (hd : ∀ f, d f = fileOf c recs f) {size : ℕ} (hsz0 : 0 < size) (hsz : ∀ r ∈ recs, r.length = size)
    {i : ℕ} (h : recs.length < (i + 1) * c) : allInDs d c size i = none := by
  have h' : recs.length < i * c + c := by rw [Nat.succ_mul] at h; exact h
  unfold allInDs
  split_ifs with h1
  · rfl
  · rw [hd, fileOf]
    split_ifs with h2
    · rw [Option.bind_some]
      have hm : ∀ r ∈ (recs.drop (i * c)).take c, r.length = size :=
        fun r hr => hsz r (List.mem_of_mem_drop (List.mem_of_mem_take hr))
      have hfl := flatten_length size _ hm
      unfold reshape
      rw [if_neg]
      rw [List.length_take, hfl]
      have hlt : ((recs.drop (i * c)).take c).length < c := by simp; omega
      have := Nat.mul_lt_mul_of_pos_right hlt hsz0
      omega
    · rfl

/-! ## Frames -/

/-- Window of array `A` seen by a frame probe, as rows, in the six digits of the text format. -/
noncomputable def ProbeCfg.rows (p : ProbeCfg) (A : Grid) : List (List ℝ) :=
  (intRange p.start_r p.end_r).map fun i => (intRange p.start_z p.end_z).map fun k => fmt6 (A i k)

theorem intRange_length (a b : ℤ) : (intRange a b).length = (b - a).toNat := by simp [intRange]

theorem frame_record (p : ProbeCfg) (hk : p.kind = .frame) (A : Grid) :
    (p.window A).map fmt6 = (p.rows A).flatten := by
  rw [← cells_window]
  unfold ProbeCfg.cells ProbeCfg.rows
  rw [hk]
  simp only [List.flatMap, List.map_flatten, List.map_map]
  congr 1
  apply List.map_congr_left
  intro i _
  simp [Function.comp_def]

theorem rows_shape (p : ProbeCfg) (A : Grid) :
    (p.rows A).length = (p.end_r - p.start_r).toNat ∧
      ∀ r ∈ p.rows A, r.length = (p.end_z - p.start_z).toNat := by
  constructor
  · simp [ProbeCfg.rows, intRange_length]
  · intro r hr
    simp only [ProbeCfg.rows, List.mem_map] at hr
    obtain ⟨i, _, rfl⟩ := hr
    simp [intRange_length]

theorem frame_records_length (p : ProbeCfg) (hk : p.kind = .frame) (t0 dt : ℝ) (A : ℕ → Grid) (N : ℕ) :
    ∀ r ∈ records p t0 dt A N, r.length = (p.end_r - p.start_r).toNat * (p.end_z - p.start_z).toNat := by
  intro r hr
  simp only [records, List.mem_map] at hr
  obtain ⟨j, _, rfl⟩ := hr
  rw [frame_record p hk, flatten_length _ _ (rows_shape p (A j)).2, (rows_shape p (A j)).1]

theorem mapM_reshape {s0 s1 : ℕ} (p : ProbeCfg) (h0 : s0 = (p.end_r - p.start_r).toNat)
    (h1 : s1 = (p.end_z - p.start_z).toNat) (Bs : List Grid) :
    (Bs.map fun B => (p.rows B).flatten).mapM (reshape s0 s1) = some (Bs.map p.rows) := by
  induction Bs with
  | nil => rfl
  | cons B Bs ih =>
    have := reshape_flatten s1 (p.rows B) (by rw [h1]; exact (rows_shape p B).2)
    rw [(rows_shape p B).1, ← h0] at this
    simp [List.mapM_cons, this, ih]

/-- **C33** (partial) After any run of a frame probe, frame `n` read from the output directory is the
window of the array at the `n`-th step the probe fired at, provided the file it lies in has been filled.
Missing: frames of the last file while it holds fewer than `frames_per_file` frames
(`C33_incomplete_violated`) and directories that already contain files (`C33_rerun_violated`). -/
theorem C33_read_back_partial (nr nz fpf : ℕ) (hfpf : 0 < fpf) (p : ProbeCfg) (hk : p.kind = .frame)
    (hs : 0 < p.schedule) (hin : p.InBounds nr nz) (t0 dt : ℝ) (ht0 : 0 ≤ t0) (hdt : 0 < dt)
    (A : ℕ → Grid) (N n j : ℕ) (hj : (firingSteps p t0 dt N)[n]? = some j)
    (hfull : (n / fpf + 1) * fpf ≤ (firingSteps p t0 dt N).length) :
    ∃ s, probeRun nr nz fpf p t0 dt A ⟨0, fun _ => none⟩ N = some s ∧
      getFrame s.dir fpf (p.end_r - p.start_r).toNat (p.end_z - p.start_z).toNat n = some (p.rows (A j)) := by
  obtain ⟨s, h1, _, hd⟩ := C32_probe_files nr nz fpf hfpf p hs hin t0 dt ht0 hdt A N
  refine ⟨s, h1, ?_⟩
  have hrl : (records p t0 dt A N).length = (firingSteps p t0 dt N).length := by simp [records]
  have hn := List.getElem?_eq_some_iff.1 hj
  obtain ⟨hnlt, hjn⟩ := hn
  have hfd : n / fpf < drange s.dir := (lt_drange hfpf hd).2 (by
    rw [hrl]; exact lt_of_le_of_lt (Nat.div_mul_le_self n fpf) hnlt)
  unfold getFrame allFramesInDs
  have hle : ¬ drange s.dir * fpf ≤ n := by
    have := (Nat.div_lt_iff_lt_mul hfpf).1 hfd; omega
  rw [if_neg hle, if_neg (by omega),
    allInDs_complete hfpf hd (frame_records_length p hk t0 dt A N) (by rw [hrl]; exact hfull)]
  have hr : (List.take fpf (List.drop (n / fpf * fpf) (records p t0 dt A N)))
      = (((firingSteps p t0 dt N).drop (n / fpf * fpf)).take fpf |>.map A).map
          (fun B => (p.rows B).flatten) := by
    unfold records
    rw [← List.map_drop, ← List.map_take, List.map_map]
    apply List.map_congr_left
    intro i _
    exact frame_record p hk (A i)
  rw [Option.bind_some, hr, mapM_reshape p rfl rfl, Option.bind_some]
  rw [List.getElem?_map, List.getElem?_map, List.getElem?_take, if_pos (Nat.mod_lt _ hfpf), List.getElem?_drop]
  have : n / fpf * fpf + n % fpf = n := by rw [Nat.mul_comm]; exact Nat.div_add_mod n fpf
  rw [this, hj]; rfl

/-- The read-back differs from the dumped value by at most half a unit of the sixth digit. -/
theorem C33_precision (p : ProbeCfg) (A : Grid) (x y : ℕ) (row : List ℝ) (v : ℝ)
    (hrow : (p.rows A)[x]? = some row) (hv : row[y]? = some v) :
    |v - A (p.start_r + x) (p.start_z + y)| ≤ 5e-6 * |A (p.start_r + x) (p.start_z + y)| := by
  have : v = fmt6 (A (p.start_r + x) (p.start_z + y)) := by
    simp only [ProbeCfg.rows, intRange, List.getElem?_map] at hrow
    rcases hx : (List.range (p.end_r - p.start_r).toNat)[x]? with _ | x'
    · simp [hx] at hrow
    · rw [hx] at hrow
      have ex : x' = x := by
        have := List.getElem?_eq_some_iff.1 hx
        obtain ⟨_, e⟩ := this; simpa using e.symm
      subst ex
      simp only [Option.map_some, Option.some.injEq] at hrow
      subst hrow
      simp only [List.getElem?_map] at hv
      rcases hy : (List.range (p.end_z - p.start_z).toNat)[y]? with _ | y'
      · simp [hy] at hv
      · rw [hy] at hv
        have ey : y' = y := by
          have := List.getElem?_eq_some_iff.1 hy
          obtain ⟨_, e⟩ := this; simpa using e.symm
        subst ey
        simpa using hv.symm
  rw [this]
  exact C32_six_digits _

/-- **C33** is violated while a file is not full: reading any frame of the incomplete last file, which has
been written, raises. -/
theorem C33_incomplete_violated (nr nz fpf : ℕ) (hfpf : 0 < fpf) (p : ProbeCfg) (hk : p.kind = .frame)
    (hs : 0 < p.schedule) (hin : p.InBounds nr nz) (hr : p.start_r < p.end_r) (hz : p.start_z < p.end_z)
    (t0 dt : ℝ) (ht0 : 0 ≤ t0) (hdt : 0 < dt) (A : ℕ → Grid) (N n : ℕ)
    (hpart : (firingSteps p t0 dt N).length < (n / fpf + 1) * fpf) :
    ∃ s, probeRun nr nz fpf p t0 dt A ⟨0, fun _ => none⟩ N = some s ∧
      getFrame s.dir fpf (p.end_r - p.start_r).toNat (p.end_z - p.start_z).toNat n = none := by
  obtain ⟨s, h1, _, hd⟩ := C32_probe_files nr nz fpf hfpf p hs hin t0 dt ht0 hdt A N
  refine ⟨s, h1, ?_⟩
  have hrl : (records p t0 dt A N).length = (firingSteps p t0 dt N).length := by simp [records]
  unfold getFrame allFramesInDs
  rw [allInDs_incomplete hd (Nat.mul_pos (by omega) (by omega))
    (frame_records_length p hk t0 dt A N) (by rw [hrl]; exact hpart)]
  split_ifs <;> rfl

/-- A probe of two rows and two columns fired at each of five steps, two frames to a file: frame 3 is read
back, frame 4 is in an incomplete file. -/
example (A : ℕ → Grid) : ∃ s, probeRun 4 4 2 ⟨.frame, 1, 1, 3, 3, 1⟩ 0 1 A ⟨0, fun _ => none⟩ 5 = some s ∧
    getFrame s.dir 2 2 2 3 = some [[fmt6 (A 3 1 1), fmt6 (A 3 1 2)], [fmt6 (A 3 2 1), fmt6 (A 3 2 2)]] ∧
    getFrame s.dir 2 2 2 4 = none := by
  have hf : firingSteps ⟨.frame, 1, 1, 3, 3, 1⟩ 0 1 5 = [0, 1, 2, 3, 4] := by
    have e : firingSteps ⟨.frame, 1, 1, 3, 3, 1⟩ 0 1 5 = List.range 5 := by
      unfold firingSteps; exact List.filter_eq_self.2 (fun j _ => by simp)
    rw [e]; rfl
  have hin : (⟨.frame, 1, 1, 3, 3, 1⟩ : ProbeCfg).InBounds 4 4 := by
    intro _ _; decide
  obtain ⟨s, h1, h2⟩ := C33_read_back_partial 4 4 2 (by norm_num) ⟨.frame, 1, 1, 3, 3, 1⟩ rfl (by norm_num) hin
    0 1 le_rfl one_pos A 5 3 3 (by rw [hf]; rfl) (by rw [hf]; decide)
  obtain ⟨s', h1', h2'⟩ := C33_incomplete_violated 4 4 2 (by norm_num) ⟨.frame, 1, 1, 3, 3, 1⟩ rfl (by norm_num) hin
    (by norm_num) (by norm_num) 0 1 le_rfl one_pos A 5 4 (by rw [hf]; decide)
  rw [h1] at h1'
  cases h1'
  exact ⟨s, h1, h2, h2'⟩

/-- What a run leaves in a directory that was not empty: old contents stay in front. -/
theorem probeRun_keeps {nr nz fpf : ℕ} {p : ProbeCfg} {t0 dt : ℝ} {A : ℕ → Grid} {d0 : Dir} {N : ℕ}
    {s : ProbeState} (h : probeRun nr nz fpf p t0 dt A ⟨0, d0⟩ N = some s) (f : ℕ) (l : List ℝ)
    (hf : d0 f = some l) : ∃ l', s.dir f = some (l ++ l') := by
  induction N generalizing s with
  | zero => cases h; exact ⟨[], by simpa using hf⟩
  | succ N ih =>
    simp only [probeRun] at h
    obtain ⟨s', hs', hst⟩ := Option.bind_eq_some_iff.1 h
    obtain ⟨l', hl'⟩ := ih hs'
    unfold probeStep at hst
    split_ifs at hst
    · obtain ⟨r, _, rfl⟩ := Option.map_eq_some_iff.1 hst
      simp only [Dir.append]
      by_cases hfe : f = s'.step_number / fpf
      · subst hfe
        rw [Function.update_self, hl']
        exact ⟨l' ++ r.map fmt6, by simp⟩
      · rw [Function.update_of_ne hfe]; exact ⟨l', hl'⟩
    · cases hst; exact ⟨l', hl'⟩

theorem probeRun_finite {nr nz fpf : ℕ} {p : ProbeCfg} {t0 dt : ℝ} {A : ℕ → Grid} {d0 : Dir} {N : ℕ}
    {s : ProbeState} (h : probeRun nr nz fpf p t0 dt A ⟨0, d0⟩ N = some s)
    (hfin : {f | d0 f ≠ none}.Finite) : {f | s.dir f ≠ none}.Finite := by
  induction N generalizing s with
  | zero => cases h; exact hfin
  | succ N ih =>
    simp only [probeRun] at h
    obtain ⟨s', hs', hst⟩ := Option.bind_eq_some_iff.1 h
    have := ih hs'
    unfold probeStep at hst
    split_ifs at hst
    · obtain ⟨r, _, rfl⟩ := Option.map_eq_some_iff.1 hst
      refine (this.union (Set.finite_singleton (s'.step_number / fpf))).subset ?_
      intro f hf
      simp only [Dir.append, Set.mem_ofPred_eq] at hf
      by_cases hfe : f = s'.step_number / fpf
      · right; exact hfe
      · left; rw [Function.update_of_ne hfe] at hf; exact hf
    · cases hst; exact this

/-- **C33** is violated by a second run into the same result directory: the files are appended to, so as
long as the first run filled file 0, the frames read from it are those of the first run, whatever the
second run computed. -/
theorem C33_rerun_violated (nr nz fpf : ℕ) (p : ProbeCfg) (t0 dt : ℝ) (A : ℕ → Grid) (N : ℕ)
    (old : List (List (List ℝ))) (s0 s1 : ℕ) (hold : old.length = fpf)
    (hsh : ∀ fr ∈ old, fr.length = s0 ∧ ∀ r ∈ fr, r.length = s1)
    (s : ProbeState)
    (hrun : probeRun nr nz fpf p t0 dt A
      ⟨0, fun f => if f = 0 then some ((old.map List.flatten).flatten) else none⟩ N = some s)
    (n : ℕ) (hn : n < fpf) :
    getFrame s.dir fpf s0 s1 n = old[n]? := by
  obtain ⟨l', hl'⟩ := probeRun_keeps hrun 0 _ (if_pos rfl)
  have hfin := probeRun_finite hrun ((Set.finite_singleton 0).subset (by
    intro f hf; simp only [Set.mem_ofPred_eq] at hf; by_contra h; exact hf (by simp at h; simp [h])))
  have hpos : 0 < drange s.dir := by
    unfold drange
    rw [Set.ncard_pos hfin]
    exact ⟨0, by simp [hl']⟩
  have hmem : ∀ r ∈ old.map List.flatten, r.length = s0 * s1 := by
    intro r hr
    obtain ⟨fr, hfr, rfl⟩ := List.mem_map.1 hr
    rw [flatten_length s1 fr (hsh fr hfr).2, (hsh fr hfr).1]
  have hfl := flatten_length _ _ hmem
  rw [List.length_map, hold] at hfl
  unfold getFrame allFramesInDs allInDs
  have : ¬ drange s.dir * fpf ≤ n := by
    have := Nat.mul_le_mul_right fpf hpos; omega
  rw [if_neg this, Nat.div_eq_of_lt hn, if_neg (by omega), if_neg (by omega), hl', Option.bind_some,
    List.take_append_of_le_length (by rw [hfl, Nat.mul_comm]),
    List.take_of_length_le (by rw [hfl, Nat.mul_comm])]
  have hre := reshape_flatten _ _ hmem
  rw [List.length_map, hold] at hre
  rw [hre, Option.bind_some]
  have hm : ∀ (o : List (List (List ℝ))), (∀ fr ∈ o, fr.length = s0 ∧ ∀ r ∈ fr, r.length = s1) →
      (o.map List.flatten).mapM (reshape s0 s1) = some o := by
    intro o ho
    induction o with
    | nil => rfl
    | cons fr o ih =>
      have h1 := reshape_flatten s1 fr (ho fr (by simp)).2
      rw [(ho fr (by simp)).1] at h1
      simp [List.mapM_cons, h1, ih (fun fr hfr => ho fr (by simp [hfr]))]
  rw [hm old hsh, Option.bind_some, Nat.mod_eq_of_lt hn]

/-! ## Ranges -/

/-- The reader `ds` returns the records `rec` in order, `c` to a dataset, for datasets `F` to `T`. -/
def Datasets {α} (ds : ℕ → Option (List α)) (c : ℕ) (rec : ℕ → α) (F T : ℕ) : Prop :=
  ∀ i, F ≤ i → i ≤ T → ds i = some ((List.range c).map fun k => rec (i * c + k))

theorem midLoop_spec {α} {ds : ℕ → Option (List α)} {c : ℕ} {rec : ℕ → α} {F sh : ℕ} (n base hi : ℕ)
    (hbase : base + sh = (F + 1) * c) :
    ∀ (cnt j : ℕ) (buf : List α), (∀ i, F + 1 + j ≤ i → i < F + 1 + j + cnt →
        ds i = some ((List.range c).map fun k => rec (i * c + k))) →
      buf.length = n → sh + (j + cnt) * c ≤ n →
      (∀ k, k < sh + j * c ∨ hi ≤ k → k < n → buf[k]? = some (rec (base + k))) →
      sh + (j + cnt) * c ≤ hi →
      ∃ buf', midLoop ds c F sh (List.range' (F + 1 + j) cnt) buf = some buf' ∧ buf'.length = n ∧
        (∀ k, k < sh + (j + cnt) * c ∨ hi ≤ k → k < n → buf'[k]? = some (rec (base + k)))
  | 0, j, buf, _, hl, _, hb, _ => ⟨buf, by simp [midLoop], hl, hb⟩
  | cnt + 1, j, buf, hds, hl, hn, hb, hhi => by
    have hjc : (j + (cnt + 1)) * c = j * c + c + cnt * c := by ring
    have hjc' : (j + 1) * c = j * c + c := by ring
    rw [List.range'_succ, midLoop, hds (F + 1 + j) le_rfl (by omega), Option.bind_some]
    have hsl : pySlice ((List.range c).map fun k => rec ((F + 1 + j) * c + k)) 0 (c : ℤ)
        = (List.range c).map fun k => rec ((F + 1 + j) * c + k) := by
      have := pySlice_nat ((List.range c).map fun k => rec ((F + 1 + j) * c + k)) (a := 0) (b := c)
        (by simp) (by simp)
      rw [Nat.cast_zero] at this
      rw [this]; simp
    have e1 : F + 1 + j - F - 1 = j := by omega
    rw [hsl, e1, npAssign_nat _ _ (a := sh + j * c) (b := sh + (j + 1) * c) (by omega) (by omega)
      (by simp; omega), Option.bind_some]
    have hspl := splice_getElem? buf ((List.range c).map fun k => rec ((F + 1 + j) * c + k))
      (a := sh + j * c) (b := sh + (j + 1) * c) (by omega) (by omega) (by simp; omega)
    have hlen := splice_length buf ((List.range c).map fun k => rec ((F + 1 + j) * c + k))
      (a := sh + j * c) (b := sh + (j + 1) * c) (by omega) (by omega) (by simp; omega)
    obtain ⟨buf', h1, h2, h3⟩ := midLoop_spec n base hi hbase cnt (j + 1) _
      (fun i hi1 hi2 => hds i (by omega) (by omega)) (hlen.trans hl) (by rw [Nat.add_assoc, Nat.add_comm 1]; exact hn)
      (by
        intro k hk hkn
        rw [hspl]
        by_cases hin : sh + j * c ≤ k ∧ k < sh + (j + 1) * c
        · rw [if_pos hin, List.getElem?_map, List.getElem?_range (by omega), Option.map_some]
          congr 2
          have : (F + 1 + j) * c = (F + 1) * c + j * c := by ring
          omega
        · rw [if_neg hin]
          exact hb k (by omega) hkn)
      (by rw [Nat.add_assoc, Nat.add_comm 1]; exact hhi)
    refine ⟨buf', ?_, h2, ?_⟩
    · rw [show F + 1 + j + 1 = F + 1 + (j + 1) by omega]; exact h1
    · intro k hk hkn
      exact h3 k (by rw [show j + 1 + cnt = j + (cnt + 1) by omega]; exact hk) hkn

/-- Position arithmetic shared by the range readers. -/
theorem range_arith {c F T a b : ℕ} (ha : a < c) (hFT : F < T) :
    ∃ q, T = F + 1 + q ∧ (T * c + b) - (F * c + a) = (c - a) + q * c + b := by
  obtain ⟨q, rfl⟩ : ∃ q, T = F + 1 + q := ⟨T - (F + 1), by omega⟩
  refine ⟨q, rfl, ?_⟩
  have : (F + 1 + q) * c = F * c + c + q * c := by ring
  omega

theorem divmod_eq {c F a : ℕ} (ha : a < c) : (F * c + a) / c = F ∧ (F * c + a) % c = a := by
  constructor
  · rw [Nat.mul_comm, Nat.mul_add_div (by omega), Nat.div_eq_of_lt ha, Nat.add_zero]
  · rw [Nat.mul_comm, Nat.mul_add_mod, Nat.mod_eq_of_lt ha]

theorem first_slice {α} (rec : ℕ → α) (c F a : ℕ) (ha : a ≤ c) :
    pySlice ((List.range c).map fun k => rec (F * c + k)) (a : ℤ) (c : ℤ)
      = (List.range (c - a)).map fun k => rec (F * c + a + k) := by
  rw [pySlice_nat _ (by simpa using ha) (by simp)]
  apply List.ext_getElem?
  intro k
  rw [List.getElem?_take, List.getElem?_drop, List.getElem?_map, List.getElem?_map]
  split_ifs with h
  · rw [List.getElem?_range (by omega), List.getElem?_range h]
    simp [Nat.add_assoc]
  · rw [List.getElem?_eq_none (by simp; omega)]; rfl

theorem last_slice {α} (rec : ℕ → α) (c T b : ℕ) (hb : b ≤ c) :
    pySlice ((List.range c).map fun k => rec (T * c + k)) 0 (b : ℤ)
      = (List.range b).map fun k => rec (T * c + k) := by
  have := pySlice_nat ((List.range c).map fun k => rec (T * c + k)) (a := 0) (b := b) (by simp) (by simpa using hb)
  rw [Nat.cast_zero] at this
  rw [this, List.drop_zero, Nat.sub_zero, ← List.map_take, List.take_range, min_eq_left hb]

/-- **C34** (partial) Column, row and dot ranges: frames `from … til − 1`, in order, whenever the range
reaches from one file into a later one (`from / c < til / c`) and all files involved are complete,
including the one of `til`.  Missing: ranges inside one file (`C34_same_file_violated`). -/
theorem C34_range_partial {α} (ds : ℕ → Option (List α)) (c : ℕ) (hc : 0 < c) (rec g : ℕ → α) (frm til : ℕ)
    (hds : Datasets ds c rec (frm / c) (til / c)) (hFT : frm / c < til / c) :
    getRange ds c g frm til = some ((List.range (til - frm)).map fun k => rec (frm + k)) := by
  obtain ⟨F, a, ha, rfl⟩ : ∃ F a, a < c ∧ frm = F * c + a :=
    ⟨frm / c, frm % c, Nat.mod_lt _ hc, by rw [Nat.mul_comm]; exact (Nat.div_add_mod _ _).symm⟩
  obtain ⟨T, b, hb, rfl⟩ : ∃ T b, b < c ∧ til = T * c + b :=
    ⟨til / c, til % c, Nat.mod_lt _ hc, by rw [Nat.mul_comm]; exact (Nat.div_add_mod _ _).symm⟩
  rw [(divmod_eq ha).1, (divmod_eq hb).1] at hds hFT
  obtain ⟨q, hq, hn⟩ := range_arith (b := b) ha hFT
  have hTc : T * c = F * c + c + q * c := by rw [hq]; ring
  unfold getRange
  rw [if_neg (by omega), if_neg (by omega)]
  simp only [(divmod_eq ha).1, (divmod_eq ha).2, (divmod_eq hb).1, (divmod_eq hb).2]
  rw [hds F le_rfl hFT.le, Option.bind_some, first_slice rec c F a ha.le]
  set n := T * c + b - (F * c + a) with hndef
  have hca : ((c : ℤ) - (a : ℤ)) = ((c - a : ℕ) : ℤ) := by omega
  have hnb : ((n : ℤ) - (b : ℤ)) = ((n - b : ℕ) : ℤ) := by omega
  have a1 := npAssign_nat ((List.range n).map g) ((List.range (c - a)).map fun k => rec (F * c + a + k))
    (a := 0) (b := c - a) (by simp; omega) (by omega) (by simp)
  have l1 := splice_length ((List.range n).map g) ((List.range (c - a)).map fun k => rec (F * c + a + k))
    (a := 0) (b := c - a) (by simp; omega) (by omega) (by simp)
  have g1 := splice_getElem? ((List.range n).map g) ((List.range (c - a)).map fun k => rec (F * c + a + k))
    (a := 0) (b := c - a) (by simp; omega) (by omega) (by simp)
  rw [Nat.cast_zero] at a1
  rw [hca, a1, Option.bind_some, hds T hFT.le le_rfl, Option.bind_some, last_slice rec c T b hb.le, hnb]
  generalize List.take 0 ((List.range n).map g) ++ ((List.range (c - a)).map fun k => rec (F * c + a + k))
    ++ List.drop (c - a) ((List.range n).map g) = buf1 at l1 g1 ⊢
  simp only [List.length_map, List.length_range] at l1
  have a2 := npAssign_nat buf1 ((List.range b).map fun k => rec (T * c + k)) (a := n - b) (b := n)
    (by omega) (by omega) (by simp; omega)
  have l2 := splice_length buf1 ((List.range b).map fun k => rec (T * c + k)) (a := n - b) (b := n)
    (by omega) (by omega) (by simp; omega)
  have g2 := splice_getElem? buf1 ((List.range b).map fun k => rec (T * c + k)) (a := n - b) (b := n)
    (by omega) (by omega) (by simp; omega)
  rw [a2, Option.bind_some]
  generalize List.take (n - b) buf1 ++ ((List.range b).map fun k => rec (T * c + k))
    ++ List.drop n buf1 = buf2 at l2 g2 ⊢
  obtain ⟨buf', h1, h2, h3⟩ := midLoop_spec (ds := ds) (c := c) (rec := rec) (F := F) (sh := c - a) n
    (F * c + a) (n - b) (by have : (F + 1) * c = F * c + c := by ring
                            omega) q 0 buf2
    (fun i hi1 hi2 => hds i (by omega) (by omega)) (l2.trans l1) (by rw [Nat.zero_add]; omega)
    (by
      intro k hk hkn
      rw [g2]
      split_ifs with hin
      · rw [List.getElem?_map, List.getElem?_range (by omega), Option.map_some]
        congr 2; omega
      · rw [g1, if_pos (by omega), List.getElem?_map, List.getElem?_range (by omega), Option.map_some]
        simp)
    (by rw [Nat.zero_add]; omega)
  have hcnt : T - (F + 1) = q := by omega
  rw [hcnt]
  rw [Nat.add_zero] at h1
  rw [h1]
  congr 1
  apply List.ext_getElem?
  intro k
  rcases lt_or_ge k n with hk | hk
  · rw [h3 k (by rw [Nat.zero_add]; omega) hk, List.getElem?_map, List.getElem?_range hk]; rfl
  · rw [List.getElem?_eq_none (by omega), List.getElem?_eq_none (by simp; omega)]

/-- A range across three files of two records. -/
example : getRange (fun i => some ((List.range 2).map fun k => i * 2 + k)) 2 (fun _ => 99) 1 5
    = some [1, 2, 3, 4] := by
  have := C34_range_partial (fun i => some ((List.range 2).map fun k => i * 2 + k)) 2 (by norm_num)
    (fun n => n) (fun _ => 99) 1 5 (fun i _ _ => rfl) (by decide)
  exact this

/-- **C34** is violated for every non-empty column, row or dot range inside one file: the read raises. -/
theorem C34_same_file_violated {α} (ds : ℕ → Option (List α)) (c : ℕ) (hc : 0 < c) (rec g : ℕ → α)
    (frm til : ℕ) (hds : Datasets ds c rec (frm / c) (til / c)) (hft : frm < til) (hsame : frm / c = til / c) :
    getRange ds c g frm til = none := by
  obtain ⟨F, a, ha, rfl⟩ : ∃ F a, a < c ∧ frm = F * c + a :=
    ⟨frm / c, frm % c, Nat.mod_lt _ hc, by rw [Nat.mul_comm]; exact (Nat.div_add_mod _ _).symm⟩
  obtain ⟨T, b, hb, rfl⟩ : ∃ T b, b < c ∧ til = T * c + b :=
    ⟨til / c, til % c, Nat.mod_lt _ hc, by rw [Nat.mul_comm]; exact (Nat.div_add_mod _ _).symm⟩
  rw [(divmod_eq ha).1, (divmod_eq hb).1] at hds hsame
  subst hsame
  unfold getRange
  rw [if_neg (by omega), if_neg (by omega)]
  simp only [(divmod_eq ha).1, (divmod_eq ha).2, (divmod_eq hb).1, (divmod_eq hb).2]
  rw [hds F le_rfl le_rfl, Option.bind_some, first_slice rec c F a ha.le]
  have hca : ((c : ℤ) - (a : ℤ)) = ((c - a : ℕ) : ℤ) := by omega
  have : npAssign ((List.range (F * c + b - (F * c + a))).map g) 0 ((c : ℤ) - a)
      ((List.range (c - a)).map fun k => rec (F * c + a + k)) = none := by
    unfold npAssign
    have h0 : pyIndex (F * c + b - (F * c + a)) 0 = 0 := by simp [pyIndex]
    rw [hca]
    simp only [List.length_map, List.length_range, h0,
      pyIndex_clamp (show F * c + b - (F * c + a) ≤ c - a by omega)]
    rw [if_neg (by omega)]
    obtain ⟨m, hm⟩ : ∃ m, c - a = m + 2 := ⟨c - a - 2, by omega⟩
    rw [hm, List.range_succ_eq_map, List.range_succ_eq_map]
    simp
  rw [this]; rfl

example : getRange (fun i => some ((List.range 3).map fun k => i * 3 + k)) 3 (fun _ => 99) 0 2 = none :=
  C34_same_file_violated _ 3 (by norm_num) (fun n => n) _ 0 2 (fun i _ _ => rfl) (by norm_num) (by decide)

/-- **C34** (partial) Frame ranges: frames `from … til − 1`, in order, in two cases: `til` is the first frame of
a file and the range has at least one file's worth of frames, or the range lies inside one file.
Missing: see the following theorems. -/
theorem C34_frame_range_partial {α} (ds : ℕ → Option (List α)) (c : ℕ) (hc : 0 < c) (rec g : ℕ → α)
    (total frm til : ℕ) (hft : frm < til) (htot : til < total)
    (hcase : (til % c = 0 ∧ c ≤ til - frm ∧ Datasets ds c rec (frm / c) (til / c - 1)) ∨
      (frm / c = til / c ∧ Datasets ds c rec (frm / c) (til / c))) :
    getFrameRange ds c total g frm til = some ((List.range (til - frm)).map fun k => rec (frm + k)) := by
  obtain ⟨F, a, ha, rfl⟩ : ∃ F a, a < c ∧ frm = F * c + a :=
    ⟨frm / c, frm % c, Nat.mod_lt _ hc, by rw [Nat.mul_comm]; exact (Nat.div_add_mod _ _).symm⟩
  obtain ⟨T, b, hb, rfl⟩ : ∃ T b, b < c ∧ til = T * c + b :=
    ⟨til / c, til % c, Nat.mod_lt _ hc, by rw [Nat.mul_comm]; exact (Nat.div_add_mod _ _).symm⟩
  rw [(divmod_eq ha).1, (divmod_eq hb).1, (divmod_eq hb).2] at hcase
  unfold getFrameRange
  rw [if_neg (by omega), if_neg (by omega), if_neg (by omega)]
  simp only [(divmod_eq ha).1, (divmod_eq ha).2, (divmod_eq hb).1, (divmod_eq hb).2]
  have hca : ((c : ℤ) - (a : ℤ)) = ((c - a : ℕ) : ℤ) := by omega
  rcases hcase with ⟨rfl, hge, hds⟩ | ⟨rfl, hds⟩
  · rw [if_pos hge]
    simp only [gt_iff_lt, lt_irrefl, if_false]
    have hFT : F < T := by
      by_contra h
      have := Nat.mul_le_mul_right c (not_lt.1 h); omega
    obtain ⟨q, hq, hn⟩ := range_arith (b := 0) ha hFT
    have hTc : T * c = F * c + c + q * c := by rw [hq]; ring
    rw [hds F le_rfl (by omega), Option.bind_some]
    have hll : ((((List.range c).map fun k => rec (F * c + k)).length : ℕ) : ℤ) = (c : ℤ) := by simp
    rw [hll, first_slice rec c F a ha.le]
    set n := T * c + 0 - (F * c + a) with hndef
    have a1 := npAssign_nat ((List.range n).map g) ((List.range (c - a)).map fun k => rec (F * c + a + k))
      (a := 0) (b := c - a) (by simp; omega) (by omega) (by simp)
    have l1 := splice_length ((List.range n).map g) ((List.range (c - a)).map fun k => rec (F * c + a + k))
      (a := 0) (b := c - a) (by simp; omega) (by omega) (by simp)
    have g1 := splice_getElem? ((List.range n).map g) ((List.range (c - a)).map fun k => rec (F * c + a + k))
      (a := 0) (b := c - a) (by simp; omega) (by omega) (by simp)
    rw [Nat.cast_zero] at a1
    rw [hca, a1, Option.bind_some, Option.bind_some]
    generalize List.take 0 ((List.range n).map g) ++ ((List.range (c - a)).map fun k => rec (F * c + a + k))
      ++ List.drop (c - a) ((List.range n).map g) = buf1 at l1 g1 ⊢
    simp only [List.length_map, List.length_range] at l1
    obtain ⟨buf', h1, h2, h3⟩ := midLoop_spec (ds := ds) (c := c) (rec := rec) (F := F) (sh := c - a) n
      (F * c + a) n (by have : (F + 1) * c = F * c + c := by ring
                        omega) q 0 buf1
      (fun i hi1 hi2 => hds i (by omega) (by omega)) l1 (by rw [Nat.zero_add]; omega)
      (by
        intro k hk hkn
        rw [g1, if_pos (by omega), List.getElem?_map, List.getElem?_range (by omega), Option.map_some]
        simp)
      (by rw [Nat.zero_add]; omega)
    have hcnt : T - (F + 1) = q := by omega
    rw [hcnt]
    rw [Nat.add_zero] at h1
    rw [h1]
    congr 1
    apply List.ext_getElem?
    intro k
    rcases lt_or_ge k n with hk | hk
    · rw [h3 k (by rw [Nat.zero_add]; omega) hk, List.getElem?_map, List.getElem?_range hk]; rfl
    · rw [List.getElem?_eq_none (by omega), List.getElem?_eq_none (by simp; omega)]
  · rw [if_neg (by omega), hds F le_rfl le_rfl, Option.bind_some]
    have hsl : pySlice ((List.range c).map fun k => rec (F * c + k)) (a : ℤ) (b : ℤ)
        = (List.range (b - a)).map fun k => rec (F * c + a + k) := by
      rw [pySlice_nat _ (by simpa using ha.le) (by simpa using hb.le)]
      apply List.ext_getElem?
      intro k
      rw [List.getElem?_take, List.getElem?_drop, List.getElem?_map, List.getElem?_map]
      split_ifs with h
      · rw [List.getElem?_range (by omega), List.getElem?_range h]
        simp [Nat.add_assoc]
      · rw [List.getElem?_eq_none (by simp; omega)]; rfl
    rw [hsl]
    unfold npAssign
    have hn : F * c + b - (F * c + a) = b - a := by omega
    have h0 : pyIndex (b - a) 0 = 0 := by simp [pyIndex]
    simp only [List.length_map, List.length_range, hn, h0, pyIndex_clamp (show b - a ≤ b by omega)]
    rw [if_pos (by omega)]
    simp

example : getFrameRange (fun i => some ((List.range 2).map fun k => i * 2 + k)) 2 10 (fun _ => 99) 1 6
    = some [1, 2, 3, 4, 5] := by
  have := C34_frame_range_partial (fun i => some ((List.range 2).map fun k => i * 2 + k)) 2 (by norm_num)
    (fun n => n) (fun _ => 99) 10 1 6 (by norm_num) (by norm_num)
    (Or.inl ⟨by decide, by norm_num, fun i _ _ => rfl⟩)
  exact this

/-- **C34** is violated for a frame range of at least one file's worth of frames that ends inside a file: the
read succeeds, but the last frame of the result is whatever was in memory. -/
theorem C34_last_frame_garbage_violated {α} (ds : ℕ → Option (List α)) (c : ℕ) (hc : 0 < c) (rec g : ℕ → α)
    (total frm til : ℕ) (htot : til < total) (hge : frm + c ≤ til) (hb0 : til % c ≠ 0)
    (hds : Datasets ds c rec (frm / c) (til / c)) :
    ∃ l, getFrameRange ds c total g frm til = some l ∧ l.length = til - frm ∧
      l[til - frm - 1]? = some (g (til - frm - 1)) := by
  obtain ⟨F, a, ha, rfl⟩ : ∃ F a, a < c ∧ frm = F * c + a :=
    ⟨frm / c, frm % c, Nat.mod_lt _ hc, by rw [Nat.mul_comm]; exact (Nat.div_add_mod _ _).symm⟩
  obtain ⟨T, b, hb, rfl⟩ : ∃ T b, b < c ∧ til = T * c + b :=
    ⟨til / c, til % c, Nat.mod_lt _ hc, by rw [Nat.mul_comm]; exact (Nat.div_add_mod _ _).symm⟩
  rw [(divmod_eq hb).2] at hb0
  rw [(divmod_eq ha).1, (divmod_eq hb).1] at hds
  have hFT : F < T := by
    by_contra h
    have := Nat.mul_le_mul_right c (not_lt.1 h); omega
  obtain ⟨q, hq, hn⟩ := range_arith (b := b) ha hFT
  have hTc : T * c = F * c + c + q * c := by rw [hq]; ring
  unfold getFrameRange
  rw [if_neg (by omega), if_neg (by omega), if_neg (by omega)]
  simp only [(divmod_eq ha).1, (divmod_eq ha).2, (divmod_eq hb).1, (divmod_eq hb).2]
  set n := T * c + b - (F * c + a) with hndef
  have hca : ((c : ℤ) - (a : ℤ)) = ((c - a : ℕ) : ℤ) := by omega
  have hnb : ((n : ℤ) - (b : ℤ) - 1) = ((n - b - 1 : ℕ) : ℤ) := by omega
  have hn1 : ((n : ℤ) - 1) = ((n - 1 : ℕ) : ℤ) := by omega
  simp only [if_pos (show b > 0 by omega)]
  rw [if_pos (by omega), hds F le_rfl hFT.le, Option.bind_some]
  have hll : ((((List.range c).map fun k => rec (F * c + k)).length : ℕ) : ℤ) = (c : ℤ) := by simp
  rw [hll, first_slice rec c F a ha.le]
  have a1 := npAssign_nat ((List.range n).map g) ((List.range (c - a)).map fun k => rec (F * c + a + k))
    (a := 0) (b := c - a) (by simp; omega) (by omega) (by simp)
  have l1 := splice_length ((List.range n).map g) ((List.range (c - a)).map fun k => rec (F * c + a + k))
    (a := 0) (b := c - a) (by simp; omega) (by omega) (by simp)
  have g1 := splice_getElem? ((List.range n).map g) ((List.range (c - a)).map fun k => rec (F * c + a + k))
    (a := 0) (b := c - a) (by simp; omega) (by omega) (by simp)
  rw [Nat.cast_zero] at a1
  rw [hca, a1, Option.bind_some, hds T hFT.le le_rfl, Option.bind_some, last_slice rec c T b hb.le, hnb, hn1]
  generalize List.take 0 ((List.range n).map g) ++ ((List.range (c - a)).map fun k => rec (F * c + a + k))
    ++ List.drop (c - a) ((List.range n).map g) = buf1 at l1 g1 ⊢
  simp only [List.length_map, List.length_range] at l1
  have a2 := npAssign_nat buf1 ((List.range b).map fun k => rec (T * c + k)) (a := n - b - 1) (b := n - 1)
    (by omega) (by omega) (by simp; omega)
  have l2 := splice_length buf1 ((List.range b).map fun k => rec (T * c + k)) (a := n - b - 1) (b := n - 1)
    (by omega) (by omega) (by simp; omega)
  have g2 := splice_getElem? buf1 ((List.range b).map fun k => rec (T * c + k)) (a := n - b - 1) (b := n - 1)
    (by omega) (by omega) (by simp; omega)
  rw [a2, Option.bind_some]
  generalize List.take (n - b - 1) buf1 ++ ((List.range b).map fun k => rec (T * c + k))
    ++ List.drop (n - 1) buf1 = buf2 at l2 g2 ⊢
  have hlast : buf2[n - 1]? = some (g (n - 1)) := by
    rw [g2, if_neg (by omega), g1, if_neg (by omega), List.getElem?_map, List.getElem?_range (by omega)]; rfl
  have hcnt : T - (F + 1) = q := by omega
  rw [hcnt]
  have key : ∀ (cnt j : ℕ) (buf : List α), j + cnt = q → buf.length = n → buf[n - 1]? = some (g (n - 1)) →
      ∃ l, midLoop ds c F (c - a) (List.range' (F + 1 + j) cnt) buf = some l ∧ l.length = n ∧
        l[n - 1]? = some (g (n - 1)) := by
    intro cnt
    induction cnt with
    | zero => intro j buf _ h1 h2; exact ⟨buf, by simp [midLoop], h1, h2⟩
    | succ cnt ih =>
      intro j buf hjq h1 h2
      have hjc' : (j + 1) * c = j * c + c := by ring
      have hqc : q * c = j * c + c + cnt * c := by rw [← hjq]; ring
      rw [List.range'_succ, midLoop, hds (F + 1 + j) (by omega) (by omega), Option.bind_some,
        last_slice rec c (F + 1 + j) c le_rfl]
      have e1 : F + 1 + j - F - 1 = j := by omega
      rw [e1, npAssign_nat _ _ (a := c - a + j * c) (b := c - a + (j + 1) * c) (by omega) (by omega)
        (by simp; omega), Option.bind_some]
      have := ih (j + 1) _ (by omega)
        ((splice_length buf ((List.range c).map fun k => rec ((F + 1 + j) * c + k))
          (a := c - a + j * c) (b := c - a + (j + 1) * c) (by omega) (by omega) (by simp; omega)).trans h1)
        (by
          rw [splice_getElem? buf ((List.range c).map fun k => rec ((F + 1 + j) * c + k))
            (a := c - a + j * c) (b := c - a + (j + 1) * c) (by omega) (by omega) (by simp; omega),
            if_neg (by omega), h2])
      rw [show F + 1 + j + 1 = F + 1 + (j + 1) by omega]
      exact this
  exact key q 0 buf2 (by omega) (l2.trans l1) hlast

example : ∃ l, getFrameRange (fun i => some ((List.range 2).map fun k => i * 2 + k)) 2 10 (fun _ => 99) 0 5
    = some l ∧ l.length = 5 ∧ l[4]? = some 99 :=
  C34_last_frame_garbage_violated _ 2 (by norm_num) (fun n => n) (fun _ => 99) 10 0 5 (by norm_num)
    (by norm_num) (by norm_num) (fun i _ _ => rfl)

/-- **C34** is violated for a frame range shorter than a file that crosses a file boundary: either the read
raises, or (when `til` is the first frame of a file) every frame of the result is garbage. -/
theorem C34_crossing_violated {α} (ds : ℕ → Option (List α)) (c : ℕ) (hc : 0 < c) (rec g : ℕ → α)
    (total frm til : ℕ) (htot : til < total) (hlt : til < frm + c) (hcross : frm / c < til / c)
    (hds : Datasets ds c rec (frm / c) (til / c)) :
    getFrameRange ds c total g frm til =
      if til % c = 0 then some ((List.range (til - frm)).map g) else none := by
  obtain ⟨F, a, ha, rfl⟩ : ∃ F a, a < c ∧ frm = F * c + a :=
    ⟨frm / c, frm % c, Nat.mod_lt _ hc, by rw [Nat.mul_comm]; exact (Nat.div_add_mod _ _).symm⟩
  obtain ⟨T, b, hb, rfl⟩ : ∃ T b, b < c ∧ til = T * c + b :=
    ⟨til / c, til % c, Nat.mod_lt _ hc, by rw [Nat.mul_comm]; exact (Nat.div_add_mod _ _).symm⟩
  rw [(divmod_eq ha).1, (divmod_eq hb).1] at hds hcross
  rw [(divmod_eq hb).2]
  obtain ⟨q, hq, hn⟩ := range_arith (b := b) ha hcross
  have hTc : T * c = F * c + c + q * c := by rw [hq]; ring
  unfold getFrameRange
  rw [if_neg (by omega), if_neg (by omega), if_neg (by omega)]
  simp only [(divmod_eq ha).1, (divmod_eq ha).2, (divmod_eq hb).1, (divmod_eq hb).2]
  rw [if_neg (by omega), hds F le_rfl hcross.le, Option.bind_some]
  have hsl : pySlice ((List.range c).map fun k => rec (F * c + k)) (a : ℤ) (b : ℤ) = [] := by
    rw [pySlice_nat _ (by simpa using ha.le) (by simpa using hb.le), show b - a = 0 by omega, List.take_zero]
  rw [hsl]
  unfold npAssign
  have h0 : pyIndex (T * c + b - (F * c + a)) 0 = 0 := by simp [pyIndex]
  simp only [List.length_map, List.length_range, h0]
  rw [pyIndex_nat (by omega)]
  split_ifs with h1 h2 h2
  · simp at h1; simp [← h1]
  · simp at h1; omega
  · simp at h1; omega
  · rfl

/-- **C34** is violated for every frame range that reaches the last frame (`til` is exclusive): it raises. -/
theorem C34_last_frame_unreachable_violated {α} (ds : ℕ → Option (List α)) (c : ℕ) (g : ℕ → α)
    (total frm til : ℕ) (hto : total ≤ til) : getFrameRange ds c total g frm til = none := by
  unfold getFrameRange
  split_ifs <;> rfl

/-- **C34** is violated for dots on the axis or on the left wall: no number is read and the read raises. -/
theorem C34_dot_origin_violated (d : Dir) (c : ℕ) (hc : 1 < c) (col row : ℕ) (h0 : col = 0 ∨ row = 0) (g : ℕ → ℝ)
    (frm til : ℕ) (hft : frm < til) :
    getRange (allDotsInDs d c col row) c g frm til = none := by
  have hds : ∀ i l, allDotsInDs d c col row i = some l → l = [] := by
    intro i l h
    unfold allDotsInDs at h
    split_ifs at h
    obtain ⟨data, _, rfl⟩ := Option.map_eq_some_iff.1 h
    have : col * row * c = 0 := by rcases h0 with h | h <;> simp [h]
    rw [this, List.take_zero]
  unfold getRange
  rw [if_neg (by omega), if_neg (by omega)]
  rcases h1 : allDotsInDs d c col row (frm / c) with _ | l
  · simp [h1]
  · have := hds _ _ h1
    subst this
    simp only [h1, Option.bind_some]
    have hz : pySlice ([] : List ℝ) ((frm % c : ℕ) : ℤ) (c : ℤ) = [] := by simp [pySlice]
    rw [hz]
    have ha := Nat.mod_lt frm (show 0 < c by omega)
    have hca : ((c : ℤ) - ((frm % c : ℕ) : ℤ)) = ((c - frm % c : ℕ) : ℤ) := by omega
    have : npAssign ((List.range (til - frm)).map g) 0 ((c : ℤ) - ((frm % c : ℕ) : ℤ)) [] = none := by
      unfold npAssign
      have h0 : pyIndex (til - frm) 0 = 0 := by simp [pyIndex]
      rw [hca]
      simp only [List.length_map, List.length_range, h0, List.length_nil]
      rw [if_neg]
      rcases le_total (til - frm) (c - frm % c) with h | h
      · rw [pyIndex_clamp h]; omega
      · rw [pyIndex_nat h]; omega
    rw [this]; rfl

/-- **C34**, end to end for column and row probes: after any run, a range read from the output directory is
the list of the columns (rows) dumped at the corresponding firing steps. -/
theorem C34_probe_range_partial (nr nz fpf : ℕ) (hfpf : 0 < fpf) (p : ProbeCfg) (size : ℕ)
    (hk : (p.kind = .col ∧ size = (p.end_r - p.start_r).toNat) ∨
      (p.kind = .row ∧ size = (p.end_z - p.start_z).toNat))
    (hs : 0 < p.schedule) (hin : p.InBounds nr nz) (t0 dt : ℝ) (ht0 : 0 ≤ t0) (hdt : 0 < dt)
    (A : ℕ → Grid) (N frm til : ℕ) (g : ℕ → List ℝ) (hFT : frm / fpf < til / fpf)
    (hfull : (til / fpf + 1) * fpf ≤ (firingSteps p t0 dt N).length) :
    ∃ s, probeRun nr nz fpf p t0 dt A ⟨0, fun _ => none⟩ N = some s ∧
      getRange (allInDs s.dir fpf size) fpf g frm til =
        some (((firingSteps p t0 dt N).drop frm).take (til - frm) |>.map fun j => (p.window (A j)).map fmt6) := by
  obtain ⟨s, h1, _, hd⟩ := C32_probe_files nr nz fpf hfpf p hs hin t0 dt ht0 hdt A N
  refine ⟨s, h1, ?_⟩
  have hrl : (records p t0 dt A N).length = (firingSteps p t0 dt N).length := by simp [records]
  have hsz : ∀ r ∈ records p t0 dt A N, r.length = size := by
    intro r hr
    simp only [records, List.mem_map] at hr
    obtain ⟨j, _, rfl⟩ := hr
    rcases hk with ⟨hk, e⟩ | ⟨hk, e⟩ <;> simp [ProbeCfg.window, hk, e]
  have htolt : til < (til / fpf + 1) * fpf := by
    have := Nat.lt_div_mul_add hfpf (a := til); rw [Nat.succ_mul]; omega
  rw [C34_range_partial (allInDs s.dir fpf size) fpf hfpf (fun n => (records p t0 dt A N).getD n []) g frm til
    ?_ hFT]
  · congr 1
    apply List.ext_getElem?
    intro k
    have hfr : frm < til := by
      by_contra h
      have := Nat.div_le_div_right (c := fpf) (not_lt.1 h); omega
    rw [List.getElem?_map, List.getElem?_map, List.getElem?_take, List.getElem?_drop]
    by_cases hk' : k < til - frm
    · rw [if_pos hk', List.getElem?_range hk', Option.map_some]
      have hlt : frm + k < (firingSteps p t0 dt N).length := by omega
      rw [List.getElem?_eq_getElem hlt]
      simp [records, hlt]
    · rw [if_neg hk', List.getElem?_eq_none (by simp; omega)]; rfl
  · intro i _ hi
    have hic : (i + 1) * fpf ≤ (records p t0 dt A N).length := by
      rw [hrl]; exact (Nat.mul_le_mul_right fpf (by omega)).trans hfull
    rw [allInDs_complete hfpf hd hsz hic]
    congr 1
    apply List.ext_getElem?
    intro k
    rw [Nat.succ_mul] at hic
    rw [List.getElem?_take, List.getElem?_drop, List.getElem?_map]
    by_cases hk' : k < fpf
    · rw [if_pos hk', List.getElem?_range hk', Option.map_some, List.getElem?_eq_getElem (by omega)]
      simp [List.getD, List.getElem?_eq_getElem (show i * fpf + k < (records p t0 dt A N).length by omega)]
    · rw [if_neg hk', List.getElem?_eq_none (by simp; omega)]; rfl

end Verif
