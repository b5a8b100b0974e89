import Verif.ProgramProps
import Verif.ResultReaderProps

/-!
# The program with its output (C105)

Puts together the iterations of the main loop (Program.lean), the dump at the end of each of them (Output.lean) and the
reader of the tools (ResultReader.lean).
-/

namespace Verif

/-- The name of a bunch, src/loadInitParam.cpp:176-183 -/
def beamObjectName (beamName : List Char) (b : BunchObj) : List Char := beamName ++ '#' :: dec b.bunch_number

/-- What `dump_data` finds in a state, src/loadInitParam.cpp:335-408: the nine arrays, what a pass of `charge_weighting`
over the bunches adds to the density of the beam (lines 582-583), and the macroparticles of `part_list` by name.  Elements that
were never set (C77) are taken to be zero; the arrays of temperatures and densities are not described here. -/
structure Shown (G : Geom) (number : ℕ) (names : List (List Char)) (beamName : List Char) (s : ProgState) (S : Snap) : Prop where
  arr : S.arr = nineArrays (fieldsOf s.mem .er) (fieldsOf s.mem .ephi) (fieldsOf s.mem .ez) (fieldsOf s.mem .hr)
    (fieldsOf s.mem .hphi) (fieldsOf s.mem .hz) (fieldsOf s.mem .jr) (fieldsOf s.mem .jphi) (fieldsOf s.mem .jz)
  beam : chargeWeightingList G (s.beam.bunches.map fun b => (List.range number).map b.ps) (fun _ _ => 0) = some S.beam
  parts : S.parts = names.zip (s.plasma.map Species.ps) ++
    s.beam.bunches.map fun b => (beamObjectName beamName b, (List.range number).map b.ps)

/-- The run with output, src/loadInitParam.cpp:455-592: each iteration is followed by `dump_data` with the time of its beginning
(line 584), only then the time is advanced (line 586).  The state is that before iteration `n`; `x` are the probes with the numbers of
their records and the files. -/
inductive ProgOut (G : Geom) (mode : PusherMode) (P : BeamSetup) (tbl : ℤ → ℤ → Option ℝ) (t0 dt : ℝ) (plasma : List Species)
    (names : List (List Char)) (beamName : List Char) (fpf : ℕ) (root : List Char) (ps : List ProbeDecl) (fs0 : OutFS) :
    ℕ → ProgState → List (ProbeDecl × ℕ) × OutFS → Prop
  | start (m1 m0 : Mem Loc) (h1 : RegionRun (Alloc G) (setupRegion G) (fun _ => none) m1)
      (h0 : RegionRun (Alloc G) (pmlRegion G tbl) m1 m0) :
      ProgOut G mode P tbl t0 dt plasma names beamName fpf root ps fs0 0 ⟨m0, plasma, ⟨0, []⟩⟩ (ps.map fun p => (p, 0), fs0)
  | step (n : ℕ) (s s' : ProgState) (x x' : List (ProbeDecl × ℕ) × OutFS) (S : Snap)
      (h : ProgOut G mode P tbl t0 dt plasma names beamName fpf root ps fs0 n s x)
      (hs : ProgStep G mode P (t0 + n * dt) dt s s') (hS : Shown G P.number names beamName s' S)
      (hd : dumpData G fpf root (t0 + n * dt) dt S x.1 x.2 S.beam = some x') :
      ProgOut G mode P tbl t0 dt plasma names beamName fpf root ps fs0 (n + 1) s' x'

/-! ## Specification -/

/-- The names of the nine arrays of fields and currents, as the documentation of the configuration gives them. -/
def shownArrays : List (List Char × Arr) :=
  [(['E', '_', 'r'], .er), (['E', '_', 'p', 'h', 'i'], .ephi), (['E', '_', 'z'], .ez),
   (['H', '_', 'r'], .hr), (['H', '_', 'p', 'h', 'i'], .hphi), (['H', '_', 'z'], .hz),
   (['J', '_', 'r'], .jr), (['J', '_', 'p', 'h', 'i'], .jphi), (['J', '_', 'z'], .jz)]

/-- `hist` are the states of a run of `N` iterations of the program: `hist n` before iteration `n`. -/
structure History (G : Geom) (mode : PusherMode) (P : BeamSetup) (tbl : ℤ → ℤ → Option ℝ) (dt : ℝ) (plasma : List Species)
    (N : ℕ) (hist : ℕ → ProgState) : Prop where
  run : ∀ n ≤ N, ProgRun G mode P tbl 0 dt plasma n (hist n)
  step : ∀ n < N, ProgStep G mode P (n * dt) dt (hist n) (hist (n + 1))

/-! ## Proofs -/

theorem dumpData_congr {G : Geom} {fpf : ℕ} {root : List Char} {t dt : ℝ} {S S' : Snap} (h : S = S') (x fs) :
    dumpData G fpf root t dt S x fs S.beam = dumpData G fpf root t dt S' x fs S'.beam := by rw [h]

theorem outputRun_congr {G : Geom} {fpf : ℕ} {root : List Char} {t0 dt : ℝ} {S S' : ℕ → Snap} (ps : List ProbeDecl) (fs0 : OutFS)
    (N : ℕ) (h : ∀ j < N, S j = S' j) : outputRun G fpf root t0 dt S ps fs0 N = outputRun G fpf root t0 dt S' ps fs0 N := by
  induction N with
  | zero => rfl
  | succ N ih =>
    simp only [outputRun]
    rw [ih fun j hj => h j (by omega), h N (by omega)]

/-- The run with output is a run without, and its files are those of the output alone, fed with the states after the iterations. -/
theorem progOut_history {G : Geom} {mode : PusherMode} {P : BeamSetup} {tbl : ℤ → ℤ → Option ℝ} {t0 dt : ℝ} {plasma : List Species}
    {names : List (List Char)} {beamName : List Char} {fpf : ℕ} {root : List Char} {ps : List ProbeDecl} {fs0 : OutFS} {N : ℕ}
    {s : ProgState} {st : List (ProbeDecl × ℕ) × OutFS}
    (h : ProgOut G mode P tbl t0 dt plasma names beamName fpf root ps fs0 N s st) :
    ∃ (hist : ℕ → ProgState) (S : ℕ → Snap), hist N = s ∧
      (∀ n ≤ N, ProgRun G mode P tbl t0 dt plasma n (hist n)) ∧
      (∀ n < N, ProgStep G mode P (t0 + n * dt) dt (hist n) (hist (n + 1))) ∧
      (∀ n < N, Shown G P.number names beamName (hist (n + 1)) (S n)) ∧
      outputRun G fpf root t0 dt S ps fs0 N = some st := by
  induction h with
  | start m1 m0 h1 h0 =>
    refine ⟨fun _ => ⟨m0, plasma, ⟨0, []⟩⟩, fun _ => ⟨fun _ => none, fun _ _ => 0, [], [], []⟩, rfl, ?_, ?_, ?_, rfl⟩
    · intro n hn
      obtain rfl : n = 0 := by omega
      exact .start m1 m0 h1 h0
    · intro n hn; omega
    · intro n hn; omega
  | step n s s' x x' S h hs hS hd ih =>
    obtain ⟨hist, T, e, h1, h2, h3, h4⟩ := ih
    refine ⟨fun j => if j = n + 1 then s' else hist j, fun j => if j = n then S else T j, by simp, ?_, ?_, ?_, ?_⟩
    · intro j hj
      dsimp only
      split_ifs with hj'
      · subst hj'
        exact .step n s s' (e ▸ h1 n le_rfl) hs
      · exact h1 j (by omega)
    · intro j hj
      dsimp only
      rw [if_neg (show ¬ j = n + 1 by omega)]
      by_cases hj' : j = n
      · subst hj'
        rw [if_pos rfl, e]
        exact hs
      · rw [if_neg (by omega)]
        exact h2 j (by omega)
    · intro j hj
      dsimp only
      by_cases hj' : j = n
      · subst hj'
        rw [if_pos rfl, if_pos rfl]
        exact hS
      · rw [if_neg (by omega), if_neg hj']
        exact h3 j (by omega)
    · simp only [outputRun]
      rw [outputRun_congr (S' := T) ps fs0 n (fun j hj => if_neg (by omega)), h4, Option.bind_some, if_pos trivial]
      exact hd

theorem firing_from_zero (p : ProbeCfg) (hs : 0 < p.schedule) (dt : ℝ) (N : ℕ) :
    firingSteps p 0 dt N = (List.range ((N + p.schedule.toNat - 1) / p.schedule.toNat)).map (· * p.schedule.toNat) := by
  obtain ⟨s, hs'⟩ := Int.eq_ofNat_of_zero_le hs.le
  have hs0 : 0 < s := by omega
  rw [show p.schedule.toNat = s by omega, ← filter_dvd_range s hs0]
  unfold firingSteps
  apply List.filter_congr
  intro j _
  have : p.schedule ∣ ⌊(0 : ℝ) / dt⌋ + j ↔ s ∣ j := by
    rw [zero_div, Int.floor_zero, zero_add, hs']
    exact Int.natCast_dvd_natCast
  simp only [this]

theorem firing_at (p : ProbeCfg) (hs : 0 < p.schedule) (dt : ℝ) (N n : ℕ) (hn : n * p.schedule.toNat < N) :
    (firingSteps p 0 dt N)[n]? = some (n * p.schedule.toNat) := by
  have hs0 : 0 < p.schedule.toNat := by omega
  rw [firing_from_zero p hs, List.getElem?_map, List.getElem?_range]
  · rfl
  · have h2 : n + 1 ≤ (N + p.schedule.toNat - 1) / p.schedule.toNat := by
      rw [Nat.le_div_iff_mul_le hs0, Nat.add_mul]; omega
    omega

theorem firing_length (p : ProbeCfg) (hs : 0 < p.schedule) (dt : ℝ) (N q : ℕ) (hq : 0 < q) (hn : (q - 1) * p.schedule.toNat < N) :
    q ≤ (firingSteps p 0 dt N).length := by
  have hs0 : 0 < p.schedule.toNat := by omega
  rw [firing_from_zero p hs, List.length_map, List.length_range, Nat.le_div_iff_mul_le hs0]
  obtain ⟨r, rfl⟩ : ∃ r, q = r + 1 := ⟨q - 1, by omega⟩
  rw [Nat.add_mul, Nat.one_mul]
  simp only [Nat.add_sub_cancel] at hn
  omega

theorem nine_shown {c : List Char} {a : Arr} (hc : (c, a) ∈ shownArrays) (F : Fields) :
    nineArrays (F .er) (F .ephi) (F .ez) (F .hr) (F .hphi) (F .hz) (F .jr) (F .jphi) (F .jz) c = some (F a) := by
  simp only [shownArrays, List.mem_cons, List.not_mem_nil, or_false, Prod.mk.injEq] at hc
  rcases hc with ⟨rfl, rfl⟩ | ⟨rfl, rfl⟩ | ⟨rfl, rfl⟩ | ⟨rfl, rfl⟩ | ⟨rfl, rfl⟩ | ⟨rfl, rfl⟩ | ⟨rfl, rfl⟩ | ⟨rfl, rfl⟩ |
    ⟨rfl, rfl⟩ <;> simp [nineArrays]

theorem shownArrays_not_beam {c : List Char} {a : Arr} (hc : (c, a) ∈ shownArrays) : c ≠ rhoBeamName := by
  simp only [shownArrays, List.mem_cons, List.not_mem_nil, or_false, Prod.mk.injEq] at hc
  rcases hc with ⟨rfl, rfl⟩ | ⟨rfl, rfl⟩ | ⟨rfl, rfl⟩ | ⟨rfl, rfl⟩ | ⟨rfl, rfl⟩ | ⟨rfl, rfl⟩ | ⟨rfl, rfl⟩ | ⟨rfl, rfl⟩ |
    ⟨rfl, rfl⟩ <;> decide

/-- As `progOut_history`, with snaps of states at all times. -/
theorem progOut_snaps {G : Geom} {mode : PusherMode} {P : BeamSetup} {tbl : ℤ → ℤ → Option ℝ} {dt : ℝ} {plasma : List Species}
    {names : List (List Char)} {beamName : List Char} {fpf : ℕ} {root : List Char} {ps : List ProbeDecl} {fs0 : OutFS} {N : ℕ}
    {s : ProgState} {st : List (ProbeDecl × ℕ) × OutFS}
    (h : ProgOut G mode P tbl 0 dt plasma names beamName fpf root ps fs0 N s st) :
    ∃ (hist : ℕ → ProgState) (S : ℕ → Snap), hist N = s ∧ History G mode P tbl dt plasma N hist ∧
      (∀ n < N, Shown G P.number names beamName (hist (n + 1)) (S n)) ∧
      (∀ n, N ≤ n → (S n).parts = names.zip (plasma.map Species.ps)) ∧
      (∀ n, ∀ c a, (c, a) ∈ shownArrays → (S n).arr c = some (fieldsOf (hist (n + 1)).mem a)) ∧
      (∀ n, ∀ c, c ∉ shownArrays.map Prod.fst → (S n).arr c = none) ∧
      outputRun G fpf root 0 dt S ps fs0 N = some st := by
  obtain ⟨hist, S, e, h1, h2, h3, h4⟩ := progOut_history h
  have hnot : ∀ c, c ∉ shownArrays.map Prod.fst → ∀ a b d e f g h i j, nineArrays a b d e f g h i j c = none := by
    intro c hc a b d e f g h i j
    simp only [shownArrays, List.map_cons, List.map_nil, List.mem_cons, List.not_mem_nil, or_false, not_or] at hc
    obtain ⟨c1, c2, c3, c4, c5, c6, c7, c8, c9⟩ := hc
    simp [nineArrays, c1, c2, c3, c4, c5, c6, c7, c8, c9]
  refine ⟨hist, fun n => if n < N then S n else
    ⟨nineArrays (fieldsOf (hist (n + 1)).mem .er) (fieldsOf (hist (n + 1)).mem .ephi) (fieldsOf (hist (n + 1)).mem .ez)
      (fieldsOf (hist (n + 1)).mem .hr) (fieldsOf (hist (n + 1)).mem .hphi) (fieldsOf (hist (n + 1)).mem .hz)
      (fieldsOf (hist (n + 1)).mem .jr) (fieldsOf (hist (n + 1)).mem .jphi) (fieldsOf (hist (n + 1)).mem .jz),
      fun _ _ => 0, [], [], names.zip (plasma.map Species.ps)⟩, e, ⟨h1, fun n hn => by simpa using h2 n hn⟩, ?_, ?_, ?_, ?_, ?_⟩
  · intro n hn
    dsimp only
    rw [if_pos hn]
    exact h3 n hn
  · intro n hn
    dsimp only
    rw [if_neg (by omega)]
  · intro n c a hc
    dsimp only
    split_ifs with hn
    · rw [(h3 n hn).arr]
      exact nine_shown hc _
    · exact nine_shown hc _
  · intro n c hc
    dsimp only
    split_ifs with hn
    · rw [(h3 n hn).arr]
      exact hnot c hc _ _ _ _ _ _ _ _ _
    · exact hnot c hc _ _ _ _ _ _ _ _ _
  · rw [outputRun_congr (S' := S) ps fs0 N fun j hj => if_pos hj]
    exact h4

/-! ## C105 -/

/-- **C105 (partial)** After any run of the program from time zero with any probes in different directories there are the states of a
run of the program such that, for each probe of a field or current that shows a window of the arrays and each number `n` of a
record, the tools read the values the array had after iteration `n·schedule`: `get_frame` for a frame, `get_col` for a column
and `get_dot` for a dot (in its order of arguments, C66).  Partial: the file of the record has to be complete, as in C33, and the
column must cover all rows, as those of the configuration do; rows cannot be read (`C66_row_violated`) and dots only if
neither number is zero. -/
theorem C105_fields_partial (G : Geom) (mode : PusherMode) (P : BeamSetup) (tbl : ℤ → ℤ → Option ℝ) (dt : ℝ) (hdt : 0 < dt)
    (plasma : List Species) (names : List (List Char)) (beamName : List Char) (fpf : ℕ) (hfpf : 0 < fpf) (root : List Char)
    (ps : List ProbeDecl) (fs0 : OutFS) (hsep : Separate root ps)
    (hempty : ∀ p ∈ ps, ∀ name, fs0 (p.path root ++ '/' :: name) = none) (N : ℕ) (s : ProgState)
    (st : List (ProbeDecl × ℕ) × OutFS)
    (h : ProgOut G mode P tbl 0 dt plasma names beamName fpf root ps fs0 N s st) :
    ∃ hist, hist N = s ∧ History G mode P tbl dt plasma N hist ∧
      ∀ p ∈ ps, ∀ a, (p.component, a) ∈ shownArrays → 0 < p.schedule → ∀ n : ℕ,
        (p.kind = .frame → p.NonNeg → (p.cfg .frame).InBounds G.nr G.nz →
          ((n / fpf + 1) * fpf - 1) * p.schedule.toNat < N →
          fsGetFrame st.2 root p.resultComponent fpf p.start_r.toNat p.start_z.toNat p.end_r.toNat p.end_z.toNat n =
            some ((p.cfg .frame).rows (fieldsOf (hist (n * p.schedule.toNat + 1)).mem a))) ∧
        (p.kind = .col → 0 ≤ p.start_z → p.start_r = 0 → p.end_r = G.nr → (p.cfg .col).InBounds G.nr G.nz →
          ((n / fpf + 1) * fpf - 1) * p.schedule.toNat < N → ∀ u v w,
          fsGetCol st.2 root p.resultComponent G.nr fpf [p.start_z.toNat, u, v, w] n =
            some (((p.cfg .col).window (fieldsOf (hist (n * p.schedule.toNat + 1)).mem a)).map fmt6)) ∧
        (p.kind = .dot → 0 < p.start_r → 0 < p.start_z → (p.cfg .dot).InBounds G.nr G.nz →
          n * p.schedule.toNat < N →
          fsGetDot st.2 root p.resultComponent fpf p.start_z.toNat p.start_r.toNat n =
            some (fmt6 (fieldsOf (hist (n * p.schedule.toNat + 1)).mem a p.start_r p.start_z))) := by
  obtain ⟨hist, S, e, hh, -, -, ha, -, hrun⟩ := progOut_snaps h
  refine ⟨hist, e, hh, ?_⟩
  intro p hp a hc hs n
  have hA : ∀ j, Offers (S j) p (fieldsOf (hist (j + 1)).mem a) := fun j => Or.inl (ha j _ a hc)
  have hb := shownArrays_not_beam hc
  have hpos : 0 < (n / fpf + 1) * fpf := Nat.mul_pos (Nat.succ_pos _) hfpf
  have hle : n ≤ (n / fpf + 1) * fpf - 1 := by
    have h1 := Nat.div_add_mod n fpf
    have h2 := Nat.mod_lt n hfpf
    rw [Nat.add_mul, Nat.one_mul, Nat.mul_comm (n / fpf)]
    omega
  refine ⟨?_, ?_, ?_⟩
  · intro hk hnn hin hn
    exact C66_frame_partial G fpf hfpf root 0 dt le_rfl hdt S ps fs0 N st hsep hrun p hp hb hk hnn
      (fun j => fieldsOf (hist (j + 1)).mem a) hA hs hin (hempty p hp) n _
      (firing_at (p.cfg .frame) hs dt N n (lt_of_le_of_lt (Nat.mul_le_mul_right _ hle) hn))
      (firing_length (p.cfg .frame) hs dt N _ hpos hn)
  · intro hk h0 h1 h2 hin hn u v w
    exact C66_col_partial G fpf hfpf root 0 dt le_rfl hdt S ps fs0 N st hsep hrun p hp hb hk h0
      (fun j => fieldsOf (hist (j + 1)).mem a) hA hs hin ⟨h1, h2⟩ (hempty p hp) n _ u v w
      (firing_at (p.cfg .col) hs dt N n (lt_of_le_of_lt (Nat.mul_le_mul_right _ hle) hn))
      (firing_length (p.cfg .col) hs dt N _ hpos hn)
  · intro hk h0 h1 hin hn
    exact C66_dot_partial G fpf hfpf root 0 dt le_rfl hdt S ps fs0 N st hsep hrun p hp hb hk ⟨h0, h1⟩
      (fun j => fieldsOf (hist (j + 1)).mem a) hA hs hin (hempty p hp) n _ (firing_at (p.cfg .dot) hs dt N n hn)

end Verif
