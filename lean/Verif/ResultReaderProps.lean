import Verif.ResultReader
import Verif.OutputProps
import Verif.ReaderProps

/-!
# Reading the results of a run with several probes (C65, C66)
-/

namespace Verif

/-! ## Paths -/

theorem fmtInt_nonneg {n : ℤ} (h : 0 ≤ n) : fmtInt n = dec n.toNat := by
  unfold fmtInt
  rw [if_neg (by omega)]
  congr 1
  omega

/-- What the user gives as `shape` for a probe: the four numbers of a frame, the column or row number, and for
a dot the column, then the row (specification). -/
def ProbeDecl.shape (p : ProbeDecl) : List ℕ :=
  match p.kind with
  | .frame | .mpframe => [p.start_r.toNat, p.start_z.toNat, p.end_r.toNat, p.end_z.toNat]
  | .col => [p.start_z.toNat]
  | .row => [p.start_r.toNat]
  | .dot => [p.start_z.toNat, p.start_r.toNat]

/-- The coordinates in the name of the directory are not negative. -/
def ProbeDecl.NonNeg (p : ProbeDecl) : Prop :=
  match p.kind with
  | .frame | .mpframe => 0 ≤ p.start_r ∧ 0 ≤ p.start_z ∧ 0 ≤ p.end_r ∧ 0 ≤ p.end_z
  | .col => 0 ≤ p.start_z
  | .row => 0 ≤ p.start_r
  | .dot => 0 ≤ p.start_r ∧ 0 ≤ p.start_z

/-- **C66** The reader looks for each type of probe in the directory the simulator writes to; for
temperatures and densities the component is given as `component/species`. -/
theorem C66_same_directory (root : List Char) (p : ProbeDecl) (hp : p.NonNeg) :
    readerPath root p.resultComponent p.kind p.shape = some (p.path root) := by
  unfold ProbeDecl.NonNeg at hp
  unfold readerPath ProbeDecl.shape ProbeDecl.path ProbeDecl.leaf
  cases hk : p.kind <;> rw [hk] at hp <;> simp only at hp ⊢
  · simp [fmtInt_nonneg hp.1, fmtInt_nonneg hp.2.1, fmtInt_nonneg hp.2.2.1, fmtInt_nonneg hp.2.2.2]
  · simp [fmtInt_nonneg hp]
  · simp [fmtInt_nonneg hp]
  · simp [fmtInt_nonneg hp.1, fmtInt_nonneg hp.2]
  · simp [fmtInt_nonneg hp.1, fmtInt_nonneg hp.2.1, fmtInt_nonneg hp.2.2.1, fmtInt_nonneg hp.2.2.2]

/-! ## Counting files -/

theorem dec_head (n : ℕ) : ∃ c t, dec n = c :: t ∧ c.isDigit = true := by
  cases h : dec n with
  | nil => exact absurd h Nat.toDigits_ne_nil
  | cons c t => exact ⟨c, t, rfl, dec_digits n c (by rw [h]; simp)⟩

theorem dataName_dec (n : ℕ) (s : List Char) : dataName (dec n ++ s ++ ['.', 'd', 'a', 't']) := by
  obtain ⟨c, t, h, hc⟩ := dec_head n
  exact ⟨c, t ++ s ++ ['.', 'd', 'a', 't'], by simp [h], hc, ⟨t ++ s, rfl⟩⟩

theorem datName_injective : Function.Injective fun f : ℕ => dec f ++ ['.', 'd', 'a', 't'] := by
  intro a b h
  exact dec_injective (List.append_cancel_right h)

/-- In a directory with numbered files only, the reader counts these. -/
theorem fileRange_eq {fs : OutFS} {dir : List Char}
    (h : ∀ name, Plain name → fs (dir ++ '/' :: name) ≠ none → ∃ f, name = dec f ++ ['.', 'd', 'a', 't']) :
    fileRange fs dir = drange (dirOf dir fs) := by
  unfold fileRange drange
  rw [← Set.ncard_image_of_injective _ datName_injective]
  congr 1
  ext name
  simp only [Set.mem_setOf_eq, Set.mem_image]
  constructor
  · rintro ⟨h1, _, h3⟩
    obtain ⟨f, rfl⟩ := h name h1 h3
    exact ⟨f, h3, rfl⟩
  · rintro ⟨f, hf, rfl⟩
    refine ⟨by simp [dec_plain], ?_, hf⟩
    simpa using dataName_dec f []

/-- The files that a probe of an array makes have numbers as names. -/
theorem single_names {G : Geom} {fpf : ℕ} {root : List Char} {t0 dt : ℝ} {S : ℕ → Snap} {p : ProbeDecl}
    {k : ProbeKind} (hk : p.kind.plain = some k) (A : ℕ → Grid) (hA : ∀ j, Offers (S j) p (A j))
    {fs0 : OutFS} (hempty : ∀ name, fs0 (p.path root ++ '/' :: name) = none) :
    ∀ {N n : ℕ} {fs : OutFS}, outputRun G fpf root t0 dt S [p] fs0 N = some ([(p, n)], fs) →
    ∀ name, fs (p.path root ++ '/' :: name) ≠ none → ∃ f, name = dec f ++ ['.', 'd', 'a', 't'] := by
  intro N
  induction N with
  | zero =>
    intro n fs h
    simp only [outputRun, List.map_cons, List.map_nil, Option.some.injEq, Prod.mk.injEq, List.cons.injEq, true_and,
      and_true] at h
    intro name hn
    rw [← h.2] at hn
    exact absurd (hempty name) hn
  | succ N ih =>
    intro n fs h
    simp only [outputRun] at h
    rcases h1 : outputRun G fpf root t0 dt S [p] fs0 N with _ | ⟨L, gs⟩
    · rw [h1] at h; cases h
    have hf := outputRun_fst h1
    obtain ⟨m, rfl⟩ : ∃ m, L = [(p, m)] := by
      rcases L with _ | ⟨⟨q, m⟩, _ | ⟨_, _⟩⟩
      · simp at hf
      · simp at hf; exact ⟨m, by rw [hf]⟩
      · simp at hf
    rw [h1, Option.bind_some] at h
    simp only [dumpData] at h
    unfold dumpOne at h
    split_ifs at h with a1 a2 a3
    · cases h
    · cases h
    · rw [dumpWrite_offers (hA N)] at h
      simp only [writeArr, hk] at h
      rcases hd : dataPath (p.path root) (dec (m / fpf)) with _ | path
      · rw [hd] at h; cases h
      rcases hr : readCells G.nr G.nz (A N) (p.cfg k).cells with _ | l
      · rw [hd, Option.bind_some, hr] at h; cases h
      rw [hd, Option.bind_some, hr] at h
      simp only [Option.map_some, Option.bind_some, Option.some.injEq, Prod.mk.injEq, List.cons.injEq, true_and,
        and_true] at h
      have hpath := dataPath_eq hd
      intro name hn
      rw [← h.2] at hn
      by_cases e : p.path root ++ '/' :: name = path
      · rw [hpath] at e
        exact ⟨m / fpf, (List.cons.inj (List.append_cancel_left e)).2⟩
      · unfold OutFS.append at hn
        rw [Function.update_of_ne e] at hn
        exact ih h1 name hn
    · simp only [Option.map_some, Option.bind_some, Option.some.injEq, Prod.mk.injEq, List.cons.injEq, true_and,
        and_true] at h
      rw [← h.2]
      exact ih h1

/-- **C66 (partial)** After a run with any probes in different directories, `get_frame` called with the
component and window of a frame probe gives the window of the array at the step at which the record was
made.  Partial, as C33: the file has to be complete. -/
theorem C66_frame_partial (G : Geom) (fpf : ℕ) (hfpf : 0 < fpf) (root : List Char) (t0 dt : ℝ) (ht0 : 0 ≤ t0)
    (hdt : 0 < dt) (S : ℕ → Snap) (ps : List ProbeDecl) (fs0 : OutFS) (N : ℕ) (st : List (ProbeDecl × ℕ) × OutFS)
    (hsep : Separate root ps) (h : outputRun G fpf root t0 dt S ps fs0 N = some st) (p : ProbeDecl) (hp : p ∈ ps)
    (hb : p.component ≠ rhoBeamName) (hk : p.kind = .frame) (hnn : p.NonNeg) (A : ℕ → Grid)
    (hA : ∀ j, Offers (S j) p (A j)) (hs : 0 < p.schedule) (hin : (p.cfg .frame).InBounds G.nr G.nz)
    (hempty : ∀ name, fs0 (p.path root ++ '/' :: name) = none) (n j : ℕ)
    (hj : (firingSteps (p.cfg .frame) t0 dt N)[n]? = some j)
    (hfull : (n / fpf + 1) * fpf ≤ (firingSteps (p.cfg .frame) t0 dt N).length) :
    fsGetFrame st.2 root p.resultComponent fpf p.start_r.toNat p.start_z.toNat p.end_r.toNat p.end_z.toNat n
      = some ((p.cfg .frame).rows (A j)) := by
  have hpl : p.kind.plain = some .frame := by rw [hk]; rfl
  obtain ⟨c, fs, e1, _, e3⟩ := C61_independent_partial G fpf root t0 dt S ps fs0 N st hsep h p hp hb
  have h1 := single_run hpl A hA e1
  have h0 : dirOf (p.path root) fs0 = fun _ => none := by funext g; exact hempty _
  rw [h0] at h1
  have hdir : dirOf (p.path root) st.2 = dirOf (p.path root) fs := by
    funext f
    exact e3 _ (by unfold Plain; simp [dec_plain])
  obtain ⟨s, h2, h3⟩ := C33_read_back_partial G.nr G.nz fpf hfpf (p.cfg .frame) rfl hs hin t0 dt ht0 hdt A N n j hj hfull
  rw [h1, Option.some.injEq] at h2
  have hsd : s.dir = dirOf (p.path root) st.2 := by rw [← h2, hdir]
  rw [hsd] at h3
  have hfr : fileRange st.2 (p.path root) = drange (dirOf (p.path root) st.2) := by
    apply fileRange_eq
    intro name hn hne
    rw [e3 name hn] at hne
    exact single_names hpl A hA hempty e1 name hne
  have hpath := C66_same_directory root p hnn
  have hshape : p.shape = [p.start_r.toNat, p.start_z.toNat, p.end_r.toNat, p.end_z.toNat] := by
    unfold ProbeDecl.shape; rw [hk]
  rw [hk, hshape] at hpath
  unfold ProbeDecl.NonNeg at hnn
  rw [hk] at hnn
  simp only at hnn
  have s0 : p.end_r.toNat - p.start_r.toNat = ((p.cfg .frame).end_r - (p.cfg .frame).start_r).toNat := by
    unfold ProbeDecl.cfg; simp only; omega
  have s1 : p.end_z.toNat - p.start_z.toNat = ((p.cfg .frame).end_z - (p.cfg .frame).start_z).toNat := by
    unfold ProbeDecl.cfg; simp only; omega
  unfold fsGetFrame
  rw [hpath, Option.bind_some, hfr, s0, s1, ← h3]
  unfold getFrame allFramesInDs
  split_ifs with c1 c2
  · rfl
  · rfl
  · congr 2
    unfold fsAllInDs allInDs
    rw [hfr]
    rfl


/-- What a run leaves for a probe of an array: the numbered files, and no others, counted right. -/
theorem run_dir {G : Geom} {fpf : ℕ} (hfpf : 0 < fpf) {root : List Char} {t0 dt : ℝ} (ht0 : 0 ≤ t0)
    (hdt : 0 < dt) {S : ℕ → Snap} {ps : List ProbeDecl} {fs0 : OutFS} {N : ℕ} {st : List (ProbeDecl × ℕ) × OutFS}
    (hsep : Separate root ps) (h : outputRun G fpf root t0 dt S ps fs0 N = some st) {p : ProbeDecl} (hp : p ∈ ps)
    (hb : p.component ≠ rhoBeamName) {k : ProbeKind} (hk : p.kind.plain = some k) (A : ℕ → Grid)
    (hA : ∀ j, Offers (S j) p (A j)) (hs : 0 < p.schedule) (hin : (p.cfg k).InBounds G.nr G.nz)
    (hempty : ∀ name, fs0 (p.path root ++ '/' :: name) = none) :
    fileRange st.2 (p.path root) = drange (dirOf (p.path root) st.2) ∧
      ∀ f, dirOf (p.path root) st.2 f = fileOf fpf (records (p.cfg k) t0 dt A N) f := by
  refine ⟨?_, fun f => C61_files_partial G fpf hfpf root t0 dt ht0 hdt S ps fs0 N st hsep h p hp hb k hk A hA hs hin
    hempty f⟩
  obtain ⟨c, fs, e1, _, e3⟩ := C61_independent_partial G fpf root t0 dt S ps fs0 N st hsep h p hp hb
  apply fileRange_eq
  intro name hn hne
  rw [e3 name hn] at hne
  exact single_names hk A hA hempty e1 name hne

theorem col_record (p : ProbeDecl) (A : Grid) :
    ((p.cfg .col).window A).length = (p.end_r - p.start_r).toNat := by
  simp [ProbeCfg.window, ProbeDecl.cfg]

/-- **C66 (partial)** The same for `get_col`, if the file is complete and the shape has four numbers, of which
only the first is used. -/
theorem C66_col_partial (G : Geom) (fpf : ℕ) (hfpf : 0 < fpf) (root : List Char) (t0 dt : ℝ) (ht0 : 0 ≤ t0)
    (hdt : 0 < dt) (S : ℕ → Snap) (ps : List ProbeDecl) (fs0 : OutFS) (N : ℕ) (st : List (ProbeDecl × ℕ) × OutFS)
    (hsep : Separate root ps) (h : outputRun G fpf root t0 dt S ps fs0 N = some st) (p : ProbeDecl) (hp : p ∈ ps)
    (hb : p.component ≠ rhoBeamName) (hk : p.kind = .col) (hnn : 0 ≤ p.start_z) (A : ℕ → Grid)
    (hA : ∀ j, Offers (S j) p (A j)) (hs : 0 < p.schedule) (hin : (p.cfg .col).InBounds G.nr G.nz)
    (hsize : p.start_r = 0 ∧ p.end_r = G.nr)
    (hempty : ∀ name, fs0 (p.path root ++ '/' :: name) = none) (n j a b c : ℕ)
    (hj : (firingSteps (p.cfg .col) t0 dt N)[n]? = some j)
    (hfull : (n / fpf + 1) * fpf ≤ (firingSteps (p.cfg .col) t0 dt N).length) :
    fsGetCol st.2 root p.resultComponent G.nr fpf [p.start_z.toNat, a, b, c] n
      = some (((p.cfg .col).window (A j)).map fmt6) := by
  have hpl : p.kind.plain = some .col := by rw [hk]; rfl
  obtain ⟨hfr, hd⟩ := run_dir hfpf ht0 hdt hsep h hp hb hpl A hA hs hin hempty
  have hpath := C66_same_directory root p (by unfold ProbeDecl.NonNeg; rw [hk]; exact hnn)
  have hpath' : readerPath root p.resultComponent .col [p.start_z.toNat, a, b, c] = some (p.path root) := by
    rw [← hpath, hk]
    unfold ProbeDecl.shape readerPath
    rw [hk]
  have hrl : (records (p.cfg .col) t0 dt A N).length = (firingSteps (p.cfg .col) t0 dt N).length := by simp [records]
  have hlen : ∀ r ∈ records (p.cfg .col) t0 dt A N, r.length = G.nr := by
    intro r hr
    simp only [records, List.mem_map] at hr
    obtain ⟨i, _, rfl⟩ := hr
    rw [List.length_map, col_record]
    omega
  obtain ⟨hnlt, _⟩ := List.getElem?_eq_some_iff.1 hj
  have hfd : n / fpf < drange (dirOf (p.path root) st.2) := (lt_drange hfpf hd).2 (by
    rw [hrl]; exact lt_of_le_of_lt (Nat.div_mul_le_self n fpf) hnlt)
  have hds : fsAllInDs st.2 (p.path root) fpf G.nr (n / fpf) = allInDs (dirOf (p.path root) st.2) fpf G.nr (n / fpf) := by
    unfold fsAllInDs allInDs; rw [hfr]; rfl
  unfold fsGetCol
  rw [if_neg (by simp), hpath', Option.bind_some, hfr, if_neg (by omega), hds,
    allInDs_complete hfpf hd hlen (by rw [hrl]; exact hfull), Option.bind_some, List.getElem?_take,
    if_pos (Nat.mod_lt _ hfpf), List.getElem?_drop]
  have : n / fpf * fpf + n % fpf = n := by rw [Nat.mul_comm]; exact Nat.div_add_mod n fpf
  rw [this]
  unfold records
  rw [List.getElem?_map, hj]
  rfl

theorem flatten_dots (l : List ℕ) (g : ℕ → ℝ) : (l.map fun j => [g j]).flatten = l.map g := by
  induction l with
  | nil => rfl
  | cons a l ih => simp [ih]

/-- **C66 (partial)** The same for `get_dot`, also from incomplete files, for a dot that is not on the axis and
not on the left wall (there the read raises, `C66_dot_violated`). -/
theorem C66_dot_partial (G : Geom) (fpf : ℕ) (hfpf : 0 < fpf) (root : List Char) (t0 dt : ℝ) (ht0 : 0 ≤ t0)
    (hdt : 0 < dt) (S : ℕ → Snap) (ps : List ProbeDecl) (fs0 : OutFS) (N : ℕ) (st : List (ProbeDecl × ℕ) × OutFS)
    (hsep : Separate root ps) (h : outputRun G fpf root t0 dt S ps fs0 N = some st) (p : ProbeDecl) (hp : p ∈ ps)
    (hb : p.component ≠ rhoBeamName) (hk : p.kind = .dot) (hnn : 0 < p.start_r ∧ 0 < p.start_z) (A : ℕ → Grid)
    (hA : ∀ j, Offers (S j) p (A j)) (hs : 0 < p.schedule) (hin : (p.cfg .dot).InBounds G.nr G.nz)
    (hempty : ∀ name, fs0 (p.path root ++ '/' :: name) = none) (n j : ℕ)
    (hj : (firingSteps (p.cfg .dot) t0 dt N)[n]? = some j) :
    fsGetDot st.2 root p.resultComponent fpf p.start_z.toNat p.start_r.toNat n
      = some (fmt6 (A j p.start_r p.start_z)) := by
  have hpl : p.kind.plain = some .dot := by rw [hk]; rfl
  obtain ⟨hfr, hd⟩ := run_dir hfpf ht0 hdt hsep h hp hb hpl A hA hs hin hempty
  have hpath := C66_same_directory root p (by unfold ProbeDecl.NonNeg; rw [hk]; exact ⟨hnn.1.le, hnn.2.le⟩)
  have hshape : p.shape = [p.start_z.toNat, p.start_r.toNat] := by unfold ProbeDecl.shape; rw [hk]
  rw [hk, hshape] at hpath
  have hrl : (records (p.cfg .dot) t0 dt A N).length = (firingSteps (p.cfg .dot) t0 dt N).length := by simp [records]
  obtain ⟨hnlt, _⟩ := List.getElem?_eq_some_iff.1 hj
  have hlt : n / fpf * fpf < (records (p.cfg .dot) t0 dt A N).length := by
    rw [hrl]; exact lt_of_le_of_lt (Nat.div_mul_le_self n fpf) hnlt
  have hfd : n / fpf < drange (dirOf (p.path root) st.2) := (lt_drange hfpf hd).2 hlt
  unfold fsGetDot
  rw [hpath, Option.bind_some, hfr, if_neg (by omega)]
  have hfile := hd (n / fpf)
  unfold dirOf at hfile
  rw [hfile, fileOf, if_pos hlt, Option.bind_some]
  have hrec : records (p.cfg .dot) t0 dt A N
      = (firingSteps (p.cfg .dot) t0 dt N).map fun j => [fmt6 (A j p.start_r p.start_z)] := by
    unfold records
    apply List.map_congr_left
    intro i _
    simp [ProbeCfg.window, ProbeDecl.cfg]
  rw [hrec, ← List.map_drop, ← List.map_take, flatten_dots]
  have hm := Nat.mod_lt n hfpf
  have h1 : 1 ≤ p.start_z.toNat * p.start_r.toNat := Nat.one_le_iff_ne_zero.2 (Nat.mul_ne_zero (by omega) (by omega))
  have h2 : n % fpf < p.start_z.toNat * p.start_r.toNat * fpf := lt_of_lt_of_le hm (Nat.le_mul_of_pos_left _ h1)
  rw [List.getElem?_take, if_pos h2, List.getElem?_map, List.getElem?_take, if_pos hm, List.getElem?_drop]
  have : n / fpf * fpf + n % fpf = n := by rw [Nat.mul_comm]; exact Nat.div_add_mod n fpf
  rw [this, hj]
  rfl

/-- **C66** fails for dots on the axis or on the left wall: whatever has been written, the read raises. -/
theorem C66_dot_violated (fs : OutFS) (root component : List Char) (fpf s0 s1 n : ℕ) (h0 : s0 = 0 ∨ s1 = 0) :
    fsGetDot fs root component fpf s0 s1 n = none := by
  have h : s0 * s1 * fpf = 0 := by rcases h0 with rfl | rfl <;> simp
  unfold fsGetDot
  cases readerPath root component .dot [s0, s1] with
  | none => rfl
  | some dir =>
    simp only [Option.bind_some, h, List.take_zero, List.getElem?_nil]
    split_ifs
    · rfl
    · cases fs (dir ++ '/' :: (dec (n / fpf) ++ ['.', 'd', 'a', 't'])) <;> rfl

/-- **C66** fails for `get_row`: it raises for all arguments, whatever has been written. -/
theorem C66_row_violated (fs : OutFS) (root component : List Char) (nz fpf : ℕ) (shape : List ℕ) (n : ℕ) :
    fsGetRow fs root component nz fpf shape n = none := by
  have h : formatRaises "{}_component:{}_type:{}_shape:{}_number:{}".toList 4 := by
    unfold formatRaises
    decide +kernel
  unfold fsGetRow
  rw [if_pos h]
  split_ifs <;> rfl

/-! ## C65: macroparticle records -/

theorem mp_names {root : List Char} {p : ProbeDecl} {n : ℕ} (v : (Particle → ℝ) → List ℝ) :
    ∀ (l : List (List Char × (Particle → ℝ))) {fs fs' : OutFS},
    l.foldlM (fun fs f => (dataPath (p.path root) (dec n ++ f.1)).map fun path => fs.append path (v f.2)) fs = some fs' →
    ∀ path, fs' path ≠ fs path → ∃ f ∈ l, path = mpPath root p n f.1 := by
  intro l
  induction l with
  | nil => intro fs fs' h path hne; cases h; exact absurd rfl hne
  | cons g l ih =>
    intro fs fs' h path hne
    simp only [List.foldlM_cons] at h
    rcases hd : dataPath (p.path root) (dec n ++ g.1) with _ | q
    · rw [hd] at h; cases h
    rw [hd] at h
    have hp : q = mpPath root p n g.1 := dataPath_eq hd
    by_cases e : path = q
    · exact ⟨g, by simp, e.trans hp⟩
    · have happ : (fs.append q (v g.2)) path = fs path := by
        unfold OutFS.append; rw [Function.update_of_ne e]
      rw [← happ] at hne
      obtain ⟨f, hf, hf'⟩ := ih h path hne
      exact ⟨f, by simp [hf], hf'⟩

/-- The files that a macroparticle probe makes -/
theorem mp_all_names {G : Geom} {fpf : ℕ} {root : List Char} {t0 dt : ℝ} {S : ℕ → Snap} {p : ProbeDecl}
    (hk : p.kind = .mpframe) (hr : p.component ∉ reserved) (harr : ∀ j, (S j).arr p.component = none)
    (P : ℕ → List Particle) (hP : ∀ j, (S j).parts.filter (fun s => s.1 = p.component) = [(p.component, P j)])
    {fs0 : OutFS} (hempty : ∀ name, fs0 (p.path root ++ '/' :: name) = none) :
    ∀ {N n : ℕ} {fs : OutFS}, outputRun G fpf root t0 dt S [p] fs0 N = some ([(p, n)], fs) →
    ∀ name, fs (p.path root ++ '/' :: name) ≠ none →
      ∃ m < n, ∃ f ∈ mpFiles, name = dec m ++ f.1 ++ ['.', 'd', 'a', 't'] := by
  classical
  intro N
  induction N with
  | zero =>
    intro n fs h
    simp only [outputRun, List.map_cons, List.map_nil, Option.some.injEq, Prod.mk.injEq, List.cons.injEq, true_and,
      and_true] at h
    intro name hn
    rw [← h.2] at hn
    exact absurd (hempty name) hn
  | succ N ih =>
    intro n fs h
    simp only [outputRun] at h
    rcases h1 : outputRun G fpf root t0 dt S [p] fs0 N with _ | ⟨L, gs⟩
    · rw [h1] at h; cases h
    have hf := outputRun_fst h1
    obtain ⟨m, rfl⟩ : ∃ m, L = [(p, m)] := by
      rcases L with _ | ⟨⟨q, m⟩, _ | ⟨_, _⟩⟩
      · simp at hf
      · simp at hf; exact ⟨m, by rw [hf]⟩
      · simp at hf
    rw [h1, Option.bind_some] at h
    simp only [dumpData] at h
    unfold dumpOne at h
    split_ifs at h with a1 a2 a3
    · cases h
    · cases h
    · unfold dumpWrite at h
      simp only [reserved, rhoBeamName, List.mem_cons, List.not_mem_nil, or_false, not_or] at hr
      simp only [harr N] at h
      rw [if_neg hr.1, if_neg hr.2.1, if_neg hr.2.2, if_pos hk,
        foldlM_filter (fun s : List Char × List Particle => s.1 = p.component), hP N] at h
      simp only [List.foldlM_cons, List.foldlM_nil, Option.bind_eq_bind, Option.pure_def, Option.bind_some,
        Option.bind_fun_some] at h
      rcases hm : mpWrite G root p (dec m) (P N) gs with _ | fs'
      · rw [hm] at h; cases h
      rw [hm] at h
      simp only [Option.map_some, Option.bind_some, Option.some.injEq, Prod.mk.injEq, List.cons.injEq, true_and,
        and_true] at h
      obtain ⟨rfl, rfl⟩ := h
      intro name hn
      by_cases e : fs' (p.path root ++ '/' :: name) = gs (p.path root ++ '/' :: name)
      · rw [e] at hn
        obtain ⟨c, hc, hc'⟩ := ih h1 name hn
        exact ⟨c, by omega, hc'⟩
      · unfold mpWrite at hm
        obtain ⟨f, hf, hf'⟩ := mp_names (v := fun g => ((P N).filter fun x => mpSelected G p x).map fun x => fmt6 (g x))
          mpFiles (by convert hm) _ e
        unfold mpPath at hf'
        exact ⟨m, by omega, f, hf, (List.cons.inj (List.append_cancel_left hf')).2⟩
    · simp only [Option.map_some, Option.bind_some, Option.some.injEq, Prod.mk.injEq, List.cons.injEq, true_and,
        and_true] at h
      rw [← h.1, ← h.2]
      exact ih h1

/-- The particle data that `get_mpframe` offers under a number, by the text of its documentation -/
noncomputable def mpData : ℕ → Option (Particle → ℝ)
  | 0 => some fun x => x.pos.c0
  | 2 => some fun x => x.pos.c2
  | 3 => some fun x => x.vel.c0
  | 4 => some fun x => x.vel.c1
  | 5 => some fun x => x.vel.c2
  | _ => none

theorem mpData_suffix {c : ℕ} {f : Particle → ℝ} (h : mpData c = some f) :
    ∃ suf, mpSuffix c = some suf ∧ (suf, f) ∈ mpFiles := by
  unfold mpData at h
  split at h <;> cases h <;> exact ⟨_, rfl, by simp [mpFiles]⟩

/-- A macroparticle probe of a run leaves five files per record. -/
theorem mp_fileRange {G : Geom} {fpf : ℕ} {root : List Char} {t0 dt : ℝ} (ht0 : 0 ≤ t0) (hdt : 0 < dt) {S : ℕ → Snap}
    {ps : List ProbeDecl} {fs0 : OutFS} {N : ℕ} {st : List (ProbeDecl × ℕ) × OutFS}
    (hsep : Separate root ps) (h : outputRun G fpf root t0 dt S ps fs0 N = some st) {p : ProbeDecl} (hp : p ∈ ps)
    (hk : p.kind = .mpframe) (hr : p.component ∉ reserved) (harr : ∀ j, (S j).arr p.component = none)
    (P : ℕ → List Particle) (hP : ∀ j, (S j).parts.filter (fun s => s.1 = p.component) = [(p.component, P j)])
    (hempty : ∀ name, fs0 (p.path root ++ '/' :: name) = none) :
    (firingSteps (p.cfg .frame) t0 dt N).length ≤ fileRange st.2 (p.path root) := by
  have hb : p.component ≠ rhoBeamName := fun e => hr (by simp [reserved, e])
  obtain ⟨n, fs, e1, _, e3⟩ := C61_independent_partial G fpf root t0 dt S ps fs0 N st hsep h p hp hb
  have hfiles := mp_files G fpf root t0 dt ht0 hdt S ps fs0 N st hsep h p hp hk hr harr P hP hempty
  let g : ℕ → List Char := fun m => dec m ++ ['_', 'p', 'o', 's', '_', 'r'] ++ ['.', 'd', 'a', 't']
  have hginj : Function.Injective g := by
    intro a b hab
    exact dec_injective (List.append_cancel_right (List.append_cancel_right hab))
  have hfin : {name | '/' ∉ name ∧ dataName name ∧ st.2 (p.path root ++ '/' :: name) ≠ none}.Finite := by
    apply Set.Finite.subset (s := ⋃ m ∈ Finset.range n, {name | ∃ f ∈ mpFiles, name = dec m ++ f.1 ++ ['.', 'd', 'a', 't']})
    · apply Set.Finite.biUnion (Finset.finite_toSet _)
      intro m _
      apply Set.Finite.subset (List.finite_toSet (mpFiles.map fun f => dec m ++ f.1 ++ ['.', 'd', 'a', 't']))
      rintro name ⟨f, hf, rfl⟩
      exact List.mem_map.2 ⟨f, hf, rfl⟩
    · rintro name ⟨h1, _, h3⟩
      rw [e3 name h1] at h3
      obtain ⟨m, hm, f, hf, hf'⟩ := mp_all_names hk hr harr P hP hempty e1 name h3
      simp only [Set.mem_iUnion]
      exact ⟨m, Finset.mem_range.2 hm, f, hf, hf'⟩
  have hsub : g '' (Finset.range (firingSteps (p.cfg .frame) t0 dt N).length : Set ℕ) ⊆
      {name | '/' ∉ name ∧ dataName name ∧ st.2 (p.path root ++ '/' :: name) ≠ none} := by
    rintro name ⟨m, hm, rfl⟩
    refine ⟨by simp [g, dec_plain], dataName_dec m _, ?_⟩
    rw [hfiles m (['_', 'p', 'o', 's', '_', 'r'], fun x => x.pos.c0) (by simp [mpFiles])]
    rw [List.getElem?_eq_getElem (by simpa using hm)]
    simp
  have := Set.ncard_le_ncard hsub hfin
  rw [Set.ncard_image_of_injective _ hginj, Set.ncard_coe_finset, Finset.card_range] at this
  exact this

/-- What `get_mpframe` gives for record `m` of a macroparticle probe of any run. -/
theorem getMpframe_eq (G : Geom) (hG : G.Valid) (fpf : ℕ) (hfpf : 0 < fpf) (root : List Char) (t0 dt : ℝ)
    (ht0 : 0 ≤ t0) (hdt : 0 < dt) (S : ℕ → Snap) (ps : List ProbeDecl) (fs0 : OutFS) (N : ℕ)
    (st : List (ProbeDecl × ℕ) × OutFS)
    (hsep : Separate root ps) (h : outputRun G fpf root t0 dt S ps fs0 N = some st) (p : ProbeDecl) (hp : p ∈ ps)
    (hk : p.kind = .mpframe) (hr : p.component ∉ reserved) (hsp : p.specie = noneText)
    (harr : ∀ j, (S j).arr p.component = none)
    (P : ℕ → List Particle) (hP : ∀ j, (S j).parts.filter (fun s => s.1 = p.component) = [(p.component, P j)])
    (hw : (0 ≤ p.start_r ∧ p.start_r < 2 ^ 31) ∧ (0 ≤ p.end_r ∧ p.end_r < 2 ^ 31) ∧
      (0 ≤ p.start_z ∧ p.start_z < 2 ^ 31) ∧ (0 ≤ p.end_z ∧ p.end_z < 2 ^ 31))
    (hx : ∀ j, ∀ x ∈ P j, (0 ≤ x.pos.c0 ∧ x.pos.c0 ≤ 2 ^ 31 * G.dr) ∧ (0 ≤ x.pos.c2 ∧ x.pos.c2 ≤ 2 ^ 31 * G.dz))
    (hempty : ∀ name, fs0 (p.path root ++ '/' :: name) = none) (m j : ℕ)
    (hj : (firingSteps (p.cfg .frame) t0 dt N)[m]? = some j) (c : ℕ) (f : Particle → ℝ) (hc : mpData c = some f) :
    getMpframe st.2 root p.component fpf p.start_r.toNat p.start_z.toNat p.end_r.toNat p.end_z.toNat c m
      = some (((open Classical in (P j).filter fun x => InMpWindow G p x).map fun x => fmt6 (f x)).take
          ((p.end_r.toNat - p.start_r.toNat) * (p.end_z.toNat - p.start_z.toNat) * fpf)) := by
  have hpath := C66_same_directory root p (by
    unfold ProbeDecl.NonNeg; rw [hk]; exact ⟨hw.1.1, hw.2.2.1.1, hw.2.1.1, hw.2.2.2.1⟩)
  have hshape : p.shape = [p.start_r.toNat, p.start_z.toNat, p.end_r.toNat, p.end_z.toNat] := by
    unfold ProbeDecl.shape; rw [hk]
  have hrc : p.resultComponent = p.component := by unfold ProbeDecl.resultComponent; rw [if_pos hsp]
  rw [hk, hshape, hrc] at hpath
  have hfr := mp_fileRange ht0 hdt hsep h hp hk hr harr P hP hempty
  obtain ⟨hm, _⟩ := List.getElem?_eq_some_iff.1 hj
  have h1 : ¬ fileRange st.2 (p.path root) * fpf ≤ m := by
    have : fileRange st.2 (p.path root) ≤ fileRange st.2 (p.path root) * fpf := Nat.le_mul_of_pos_right _ hfpf
    omega
  have h2 : ¬ fileRange st.2 (p.path root) < m / fpf := by
    have := Nat.div_le_self m fpf
    omega
  obtain ⟨suf, hs1, hs2⟩ := mpData_suffix hc
  unfold getMpframe
  rw [hpath, Option.bind_some, if_neg h1, if_neg h2, hs1, Option.bind_some,
    C63_files_partial G hG fpf root t0 dt ht0 hdt S ps fs0 N st hsep h p hp hk hr harr P hP hw hx hempty m (suf, f) hs2, hj]
  rfl

/-- **C65 (partial)** A record of a macroparticle probe is read back as it was written, particle by particle in
the order of the species, for each of the five data that are written, if the number of selected particles is
not larger than cells in the window times frames per file (`C65_truncated_violated`) and for another number
than 1 (`C65_phi_violated`). -/
theorem C65_read_back_partial (G : Geom) (hG : G.Valid) (fpf : ℕ) (hfpf : 0 < fpf) (root : List Char) (t0 dt : ℝ)
    (ht0 : 0 ≤ t0) (hdt : 0 < dt) (S : ℕ → Snap) (ps : List ProbeDecl) (fs0 : OutFS) (N : ℕ)
    (st : List (ProbeDecl × ℕ) × OutFS)
    (hsep : Separate root ps) (h : outputRun G fpf root t0 dt S ps fs0 N = some st) (p : ProbeDecl) (hp : p ∈ ps)
    (hk : p.kind = .mpframe) (hr : p.component ∉ reserved) (hsp : p.specie = noneText)
    (harr : ∀ j, (S j).arr p.component = none)
    (P : ℕ → List Particle) (hP : ∀ j, (S j).parts.filter (fun s => s.1 = p.component) = [(p.component, P j)])
    (hw : (0 ≤ p.start_r ∧ p.start_r < 2 ^ 31) ∧ (0 ≤ p.end_r ∧ p.end_r < 2 ^ 31) ∧
      (0 ≤ p.start_z ∧ p.start_z < 2 ^ 31) ∧ (0 ≤ p.end_z ∧ p.end_z < 2 ^ 31))
    (hx : ∀ j, ∀ x ∈ P j, (0 ≤ x.pos.c0 ∧ x.pos.c0 ≤ 2 ^ 31 * G.dr) ∧ (0 ≤ x.pos.c2 ∧ x.pos.c2 ≤ 2 ^ 31 * G.dz))
    (hempty : ∀ name, fs0 (p.path root ++ '/' :: name) = none) (m j : ℕ)
    (hj : (firingSteps (p.cfg .frame) t0 dt N)[m]? = some j) (c : ℕ) (f : Particle → ℝ) (hc : mpData c = some f)
    (hroom : (open Classical in (P j).filter fun x => InMpWindow G p x).length
      ≤ (p.end_r.toNat - p.start_r.toNat) * (p.end_z.toNat - p.start_z.toNat) * fpf) :
    getMpframe st.2 root p.component fpf p.start_r.toNat p.start_z.toNat p.end_r.toNat p.end_z.toNat c m
      = some ((open Classical in (P j).filter fun x => InMpWindow G p x).map fun x => fmt6 (f x)) := by
  rw [getMpframe_eq G hG fpf hfpf root t0 dt ht0 hdt S ps fs0 N st hsep h p hp hk hr hsp harr P hP hw hx hempty m j hj
    c f hc, List.take_of_length_le (by rw [List.length_map]; exact hroom)]

/-- **C65** fails when the window holds more particles than cells times frames per file: the others are left
out without any message. -/
theorem C65_truncated_violated (G : Geom) (hG : G.Valid) (fpf : ℕ) (hfpf : 0 < fpf) (root : List Char) (t0 dt : ℝ)
    (ht0 : 0 ≤ t0) (hdt : 0 < dt) (S : ℕ → Snap) (ps : List ProbeDecl) (fs0 : OutFS) (N : ℕ)
    (st : List (ProbeDecl × ℕ) × OutFS)
    (hsep : Separate root ps) (h : outputRun G fpf root t0 dt S ps fs0 N = some st) (p : ProbeDecl) (hp : p ∈ ps)
    (hk : p.kind = .mpframe) (hr : p.component ∉ reserved) (hsp : p.specie = noneText)
    (harr : ∀ j, (S j).arr p.component = none)
    (P : ℕ → List Particle) (hP : ∀ j, (S j).parts.filter (fun s => s.1 = p.component) = [(p.component, P j)])
    (hw : (0 ≤ p.start_r ∧ p.start_r < 2 ^ 31) ∧ (0 ≤ p.end_r ∧ p.end_r < 2 ^ 31) ∧
      (0 ≤ p.start_z ∧ p.start_z < 2 ^ 31) ∧ (0 ≤ p.end_z ∧ p.end_z < 2 ^ 31))
    (hx : ∀ j, ∀ x ∈ P j, (0 ≤ x.pos.c0 ∧ x.pos.c0 ≤ 2 ^ 31 * G.dr) ∧ (0 ≤ x.pos.c2 ∧ x.pos.c2 ≤ 2 ^ 31 * G.dz))
    (hempty : ∀ name, fs0 (p.path root ++ '/' :: name) = none) (m j : ℕ)
    (hj : (firingSteps (p.cfg .frame) t0 dt N)[m]? = some j) (c : ℕ) (f : Particle → ℝ) (hc : mpData c = some f)
    (hroom : (p.end_r.toNat - p.start_r.toNat) * (p.end_z.toNat - p.start_z.toNat) * fpf
      < (open Classical in (P j).filter fun x => InMpWindow G p x).length) :
    ∃ l, getMpframe st.2 root p.component fpf p.start_r.toNat p.start_z.toNat p.end_r.toNat p.end_z.toNat c m = some l ∧
      l.length = (p.end_r.toNat - p.start_r.toNat) * (p.end_z.toNat - p.start_z.toNat) * fpf ∧
      l ≠ (open Classical in (P j).filter fun x => InMpWindow G p x).map fun x => fmt6 (f x) := by
  refine ⟨_, getMpframe_eq G hG fpf hfpf root t0 dt ht0 hdt S ps fs0 N st hsep h p hp hk hr hsp harr P hP hw hx hempty
    m j hj c f hc, ?_, ?_⟩
  · rw [List.length_take, List.length_map]
    omega
  · intro e
    have := congrArg List.length e
    rw [List.length_take, List.length_map] at this
    omega

/-- **C65** fails for the position angle, number 1: no run writes it, and the read raises. -/
theorem C65_phi_violated (G : Geom) (fpf : ℕ) (root : List Char) (t0 dt : ℝ) (S : ℕ → Snap) (ps : List ProbeDecl)
    (fs0 : OutFS) (N : ℕ) (st : List (ProbeDecl × ℕ) × OutFS)
    (hsep : Separate root ps) (h : outputRun G fpf root t0 dt S ps fs0 N = some st) (p : ProbeDecl) (hp : p ∈ ps)
    (hk : p.kind = .mpframe) (hr : p.component ∉ reserved) (hsp : p.specie = noneText)
    (hnn : 0 ≤ p.start_r ∧ 0 ≤ p.start_z ∧ 0 ≤ p.end_r ∧ 0 ≤ p.end_z)
    (harr : ∀ j, (S j).arr p.component = none)
    (P : ℕ → List Particle) (hP : ∀ j, (S j).parts.filter (fun s => s.1 = p.component) = [(p.component, P j)])
    (hempty : ∀ name, fs0 (p.path root ++ '/' :: name) = none) (m : ℕ) :
    getMpframe st.2 root p.component fpf p.start_r.toNat p.start_z.toNat p.end_r.toNat p.end_z.toNat 1 m = none := by
  have hpath := C66_same_directory root p (by unfold ProbeDecl.NonNeg; rw [hk]; exact hnn)
  have hshape : p.shape = [p.start_r.toNat, p.start_z.toNat, p.end_r.toNat, p.end_z.toNat] := by
    unfold ProbeDecl.shape; rw [hk]
  have hrc : p.resultComponent = p.component := by unfold ProbeDecl.resultComponent; rw [if_pos hsp]
  rw [hk, hshape, hrc] at hpath
  have hb : p.component ≠ rhoBeamName := fun e => hr (by simp [reserved, e])
  obtain ⟨n, fs, e1, _, e3⟩ := C61_independent_partial G fpf root t0 dt S ps fs0 N st hsep h p hp hb
  have hno : st.2 (p.path root ++ '/' :: (dec m ++ ['_', 'p', 'o', 's', '_', 'p', 'h', 'i'] ++ ['.', 'd', 'a', 't'])) = none := by
    rw [e3 _ (by unfold Plain; simp [dec_plain])]
    by_contra hne
    obtain ⟨k, _, f, hf, hf'⟩ := mp_all_names hk hr harr P hP hempty e1 _ hne
    have h1 := List.append_cancel_right hf'
    have h2 : dec m ++ '_' :: ['p', 'o', 's', '_', 'p', 'h', 'i'] = dec k ++ f.1 := h1
    simp only [mpFiles, List.mem_cons, List.not_mem_nil, or_false] at hf
    rcases hf with rfl | rfl | rfl | rfl | rfl <;>
    · have h3 := congrArg (fun l => l.reverse.take 5) h2
      simp at h3
  unfold getMpframe
  rw [hpath, Option.bind_some]
  split_ifs
  · rfl
  · rfl
  · simp only [mpSuffix, Option.bind_some, hno]
    rfl

/-! Not vacuous: a run with one species `e` of one particle in the cell (1, 1), and `E_r` = 3 everywhere. -/

noncomputable def demoPart : Particle := ⟨true, ⟨1.5, 0, 1.5⟩, ⟨1.5, 0, 1.5⟩, ⟨1, 2, 3⟩, 1, 1, 0, 1⟩

noncomputable def demoSnap : Snap :=
  ⟨fun c => if c = ['E', '_', 'r'] then some (fun _ _ => 3) else none, fun _ _ => 0, [], [], [(['e'], [demoPart])]⟩

def demoProbes : List ProbeDecl :=
  [⟨.mpframe, ['e'], noneText, 0, 0, 2, 2, 1⟩, ⟨.dot, ['E', '_', 'r'], noneText, 1, 2, -1, -1, 1⟩,
   ⟨.frame, ['E', '_', 'r'], noneText, 0, 0, 2, 1, 1⟩, ⟨.col, ['E', '_', 'r'], noneText, 0, 3, 4, -1, 1⟩]

theorem demo_separate : Separate ['d'] demoProbes := by unfold Separate demoProbes; decide

theorem demo_run : ∃ st, outputRun ⟨3, 3, 4, 4, 1, 1⟩ 1 ['d'] 0 1 (fun _ => demoSnap) demoProbes (fun _ => none) 1 = some st := by
  apply C61_no_fault _ _ (by norm_num) _ _ _ _ _ _ 1 (by norm_num) 1 (by norm_num)
  intro p hp
  simp only [demoProbes, List.mem_cons, List.not_mem_nil, or_false] at hp
  rcases hp with rfl | rfl | rfl | rfl <;> refine ⟨by norm_num, ?_, by decide⟩ <;> intro kd hkd <;> cases hkd <;>
    simp [ProbeCfg.InBounds, ProbeDecl.cfg] <;> decide

theorem demo_first (p : ProbeCfg) (hp : p.schedule = 1) : (firingSteps p 0 1 1)[0]? = some 0 := by
  simp [firingSteps, hp]

example : ∃ st, outputRun ⟨3, 3, 4, 4, 1, 1⟩ 1 ['d'] 0 1 (fun _ => demoSnap) demoProbes (fun _ => none) 1 = some st ∧
    getMpframe st.2 ['d'] ['e'] 1 0 0 2 2 5 0 = some [fmt6 3] ∧
    fsGetDot st.2 ['d'] ['E', '_', 'r'] 1 2 1 0 = some (fmt6 3) ∧
    fsGetFrame st.2 ['d'] ['E', '_', 'r'] 1 0 0 2 1 0 = some [[fmt6 3], [fmt6 3]] ∧
    fsGetCol st.2 ['d'] ['E', '_', 'r'] 4 1 [3, 0, 0, 0] 0 = some [fmt6 3, fmt6 3, fmt6 3, fmt6 3] := by
  obtain ⟨st, h⟩ := demo_run
  have hoff : ∀ p : ProbeDecl, p.component = ['E', '_', 'r'] → ∀ j : ℕ, Offers ((fun _ => demoSnap) j) p ((fun _ _ _ => 3) j) := by
    intro p hp j
    left
    simp [demoSnap, hp]
  have hGv : Geom.Valid ⟨3, 3, 4, 4, 1, 1⟩ := ⟨by norm_num, by norm_num, by norm_num, by norm_num, by norm_num, by norm_num⟩
  refine ⟨st, h, ?_, ?_, ?_, ?_⟩
  · have hwin : ∀ x ∈ [demoPart], InMpWindow ⟨3, 3, 4, 4, 1, 1⟩ ⟨.mpframe, ['e'], noneText, 0, 0, 2, 2, 1⟩ x := by
      intro x hx
      rw [List.mem_singleton] at hx
      subst hx
      unfold InMpWindow demoPart
      norm_num
    have hflt : (open Classical in [demoPart].filter fun x =>
        InMpWindow ⟨3, 3, 4, 4, 1, 1⟩ ⟨.mpframe, ['e'], noneText, 0, 0, 2, 2, 1⟩ x) = [demoPart] :=
      List.filter_eq_self.2 (by simpa using hwin)
    have := C65_read_back_partial ⟨3, 3, 4, 4, 1, 1⟩ hGv 1 (by norm_num) ['d'] 0 1 le_rfl (by norm_num) _ _ _ 1 st
      demo_separate h ⟨.mpframe, ['e'], noneText, 0, 0, 2, 2, 1⟩ (by simp [demoProbes]) rfl (by decide) rfl
      (fun _ => by simp [demoSnap]) (fun _ => [demoPart]) (fun _ => by simp [demoSnap]) (by norm_num)
      (by
        intro j x hx
        rw [List.mem_singleton] at hx
        subst hx
        unfold demoPart
        norm_num) (fun _ => rfl) 0 0 (demo_first _ rfl) 5 _ rfl (by rw [hflt]; simp)
    rw [hflt] at this
    simpa [demoPart] using this
  · exact C66_dot_partial ⟨3, 3, 4, 4, 1, 1⟩ 1 (by norm_num) ['d'] 0 1 le_rfl (by norm_num) _ _ _ 1 st
      demo_separate h ⟨.dot, ['E', '_', 'r'], noneText, 1, 2, -1, -1, 1⟩ (by simp [demoProbes]) (by decide) rfl (by norm_num)
      _ (hoff _ rfl) (by norm_num) (by simp [ProbeCfg.InBounds, ProbeDecl.cfg]) (fun _ => rfl) 0 0 (demo_first _ rfl)
  · have := C66_frame_partial ⟨3, 3, 4, 4, 1, 1⟩ 1 (by norm_num) ['d'] 0 1 le_rfl (by norm_num) _ _ _ 1 st
      demo_separate h ⟨.frame, ['E', '_', 'r'], noneText, 0, 0, 2, 1, 1⟩ (by simp [demoProbes]) (by decide) rfl
      (by simp [ProbeDecl.NonNeg]) _ (hoff _ rfl) (by norm_num) (by simp [ProbeCfg.InBounds, ProbeDecl.cfg]) (fun _ => rfl) 0 0
      (demo_first _ rfl) (by have := demo_first (ProbeDecl.cfg ⟨.frame, ['E', '_', 'r'], noneText, 0, 0, 2, 1, 1⟩ .frame) rfl
                             have := (List.getElem?_eq_some_iff.1 this).1
                             omega)
    have hrc : (ProbeDecl.mk .frame ['E', '_', 'r'] noneText 0 0 2 1 1).resultComponent = ['E', '_', 'r'] := by
      simp [ProbeDecl.resultComponent]
    rw [hrc] at this
    simpa [ProbeCfg.rows, ProbeDecl.cfg, intRange, List.range_succ] using this
  · have := C66_col_partial ⟨3, 3, 4, 4, 1, 1⟩ 1 (by norm_num) ['d'] 0 1 le_rfl (by norm_num) _ _ _ 1 st
      demo_separate h ⟨.col, ['E', '_', 'r'], noneText, 0, 3, 4, -1, 1⟩ (by simp [demoProbes]) (by decide) rfl (by norm_num)
      _ (hoff _ rfl) (by norm_num) (by simp [ProbeCfg.InBounds, ProbeDecl.cfg]) (by norm_num) (fun _ => rfl) 0 0 0 0 0
      (demo_first _ rfl) (by have := demo_first (ProbeDecl.cfg ⟨.col, ['E', '_', 'r'], noneText, 0, 3, 4, -1, 1⟩ .col) rfl
                             have := (List.getElem?_eq_some_iff.1 this).1
                             omega)
    have hrc : (ProbeDecl.mk .col ['E', '_', 'r'] noneText 0 3 4 (-1) 1).resultComponent = ['E', '_', 'r'] := by
      simp [ProbeDecl.resultComponent]
    rw [hrc] at this
    simpa [ProbeCfg.window, ProbeDecl.cfg] using this

end Verif
