import Verif.Report
import Verif.OutputProps

/-!
# Properties of the table on the terminal (C106)
-/

namespace Verif

/-! ## Specification -/

/-- A line of the table: probe `probe` saved frame `frame` in iteration `iter`. -/
structure Line where
  iter : ℕ
  frame : ℕ
  probe : ProbeDecl

/-- The lines of `N` iterations: iterations in order, in each of them the probes of the configuration whose schedule divides its number. -/
def tableLines (ps : List ProbeDecl) (N : ℕ) : List Line :=
  (List.range N).flatMap fun j : ℕ => (ps.filter fun p => p.schedule ∣ (j : ℤ)).map fun p => ⟨j, j / p.schedule.toNat, p⟩

/-- The name of a type of probe in the table -/
def kindName : OKind → List Char
  | .frame => ['f', 'r', 'a', 'm', 'e']
  | .col => ['c', 'o', 'l', 'u', 'm', 'n']
  | .row => ['r', 'o', 'w']
  | .dot => ['d', 'o', 't']
  | .mpframe => ['m', 'p', 'f', 'r', 'a', 'm', 'e']

/-- The numbers that say where a probe is -/
def shapeNumbers (p : ProbeDecl) : List ℤ :=
  match p.kind with
  | .frame | .mpframe => [p.start_r, p.start_z, p.end_r, p.end_z]
  | .col => [p.start_z]
  | .row => [p.start_r]
  | .dot => [p.start_r, p.start_z]

/-- The first five columns of a line -/
noncomputable def lineFields (showTime : ℝ → List Char) (dt : ℝ) (l : Line) : List (List Char) :=
  [dec l.iter, dec l.frame, kindName l.probe.kind ++ '/' :: l.probe.resultComponent,
    '[' :: ([','].intercalate ((shapeNumbers l.probe).map fmtInt)) ++ [']'], showTime (l.iter * dt)]

/-- A line: the columns with their widths, then the duration -/
noncomputable def lineText (showTime : ℝ → List Char) (dt : ℝ) (l : Line) (dur : List Char) : List Char :=
  (((lineFields showTime dt l).zip [8, 13, 25, 21, 18]).flatMap fun x => padTo x.2 x.1) ++ padTo 18 dur ++ ['\n']

/-- Lines from number `k` on, with a header before each twentieth -/
noncomputable def tableText (showTime : ℝ → List Char) (dur : ℕ → List Char) (dt : ℝ) (k : ℕ) (ls : List Line) : List Char :=
  (ls.zipIdx k).flatMap fun x => (if x.2 % 20 = 0 then tableHeader else []) ++ lineText showTime dt x.1 (dur x.2)

/-- How often a probe writes in `N` iterations -/
def savedFrames (p : ProbeDecl) (N : ℕ) : ℕ := (N + p.schedule.toNat - 1) / p.schedule.toNat

/-- The words of a line: the longest parts without blanks, as `split` of a script gives them -/
def wordsFrom : List Char → List Char → List (List Char)
  | cur, [] => if cur = [] then [] else [cur]
  | cur, c :: s => if c = ' ' ∨ c = '\n' then (if cur = [] then wordsFrom [] s else cur :: wordsFrom [] s) else wordsFrom (cur ++ [c]) s

def words (s : List Char) : List (List Char) := wordsFrom [] s

/-- without blanks -/
def NoBlank (s : List Char) : Prop := ∀ c ∈ s, c ≠ ' ' ∧ c ≠ '\n'

/-! ## Proofs -/

theorem fmtInt_natCast (n : ℕ) : fmtInt n = dec n := by
  unfold fmtInt
  rw [if_neg (by omega)]
  rfl

theorem typeComp_eq (p : ProbeDecl) : typeComp p = kindName p.kind ++ '/' :: p.resultComponent := by
  obtain ⟨k, c, s, a1, a2, a3, a4, a5⟩ := p
  unfold typeComp ProbeDecl.resultComponent
  by_cases h : s = noneText
  · cases k <;> simp [h, kindName]
  · cases k <;> simp [h, kindName]

theorem probeShape_eq (p : ProbeDecl) :
    probeShape p = '[' :: ([','].intercalate ((shapeNumbers p).map fmtInt)) ++ [']'] := by
  obtain ⟨k, c, s, a1, a2, a3, a4, a5⟩ := p
  unfold probeShape shapeNumbers
  cases k <;> simp [List.intercalate, List.intersperse]

theorem intText_length {n : ℤ} (h : |n| < 2 ^ 31) : (fmtInt n).length ≤ 11 := by
  have : (dec n.natAbs).length ≤ 10 := by
    refine dec_length (by norm_num) ?_
    have := Int.abs_eq_natAbs n
    omega
  unfold fmtInt
  split_ifs
  · simp only [List.length_cons]; omega
  · omega

theorem intText_pos (n : ℤ) : 1 ≤ (fmtInt n).length := by
  have h : dec n.natAbs ≠ [] := by
    intro h
    have := Nat.length_toDigits_pos (b := 10) (n := n.natAbs)
    unfold dec at h
    rw [h] at this
    simp at this
  have := List.length_pos_iff.2 h
  unfold fmtInt
  split_ifs
  · simp
  · omega

/-- The numbers of a probe are values of `int`. -/
def ProbeDecl.IsInt (p : ProbeDecl) : Prop := |p.start_r| < 2 ^ 31 ∧ |p.start_z| < 2 ^ 31 ∧ |p.end_r| < 2 ^ 31 ∧ |p.end_z| < 2 ^ 31

/-- **C106** The buffers of the table are large enough for every probe that could be made. -/
theorem C106_buffers (result_path data_root root : List Char) (p : ProbeDecl) (h : newProbe result_path data_root p = some root)
    (hp : p.IsInt) : (typeComp p).length < 100 ∧ (probeShape p).length < 100 := by
  unfold newProbe at h
  simp only at h
  split_ifs at h with hc
  obtain ⟨-, -, -, -, -, hpath⟩ := hc
  unfold Fits ProbeDecl.path at hpath
  simp only [List.length_append, List.length_cons] at hpath
  obtain ⟨i1, i2, i3, i4⟩ := hp
  have l1 := intText_length i1
  have l2 := intText_length i2
  have l3 := intText_length i3
  have l4 := intText_length i4
  have m1 := intText_pos p.start_r
  have m2 := intText_pos p.start_z
  constructor
  · rw [typeComp_eq]
    unfold ProbeDecl.leaf at hpath
    cases hk : p.kind <;> rw [hk] at hpath <;> simp [kindName] at hpath ⊢ <;> omega
  · unfold probeShape
    cases hk : p.kind <;> simp <;> omega

theorem savedFrames_succ (p : ProbeDecl) (hs : 0 < p.schedule) (N : ℕ) :
    savedFrames p (N + 1) = savedFrames p N + (if p.schedule ∣ (N : ℤ) then 1 else 0) ∧
    (p.schedule ∣ (N : ℤ) → savedFrames p N = N / p.schedule.toNat) := by
  obtain ⟨s, hs'⟩ := Int.eq_ofNat_of_zero_le hs.le
  have hs0 : 0 < s := by omega
  unfold savedFrames
  rw [show p.schedule.toNat = s by omega]
  have hd : p.schedule ∣ (N : ℤ) ↔ s ∣ N := by rw [hs']; exact Int.natCast_dvd_natCast
  have e1 : (N + 1 + s - 1) / s = N / s + 1 := by
    rw [show N + 1 + s - 1 = N + s by omega, Nat.add_div_right _ hs0]
  have e2 : s ∣ N → (N + s - 1) / s = N / s := by
    rintro ⟨q, rfl⟩
    rw [Nat.mul_div_cancel_left _ hs0, show s * q + s - 1 = (s - 1) + s * q by omega, Nat.add_mul_div_left _ _ hs0,
      Nat.div_eq_of_lt (by omega), Nat.zero_add]
  have e3 : ¬ s ∣ N → (N + s - 1) / s = N / s + 1 := by
    intro h
    have h1 := Nat.div_add_mod N s
    have h2 := Nat.mod_lt N hs0
    have h3 : N % s ≠ 0 := fun h' => h (Nat.dvd_of_mod_eq_zero h')
    rw [← Nat.add_div_right _ hs0]
    have : (N + s - 1) = (N % s + s - 1) + s * (N / s) := by omega
    rw [this, Nat.add_mul_div_left _ _ hs0, Nat.add_div_right _ hs0]
    rw [show N % s + s - 1 = (N % s - 1) + s by omega, Nat.add_div_right _ hs0, Nat.div_eq_of_lt (by omega)]
    omega
  refine ⟨?_, fun h => e2 (hd.1 h)⟩
  rw [e1]
  by_cases h : s ∣ N
  · rw [if_pos (hd.2 h), e2 h]
  · rw [if_neg (fun h' => h (hd.1 h')), e3 h]

theorem lineText_eq (showTime : ℝ → List Char) (dt : ℝ) (j n : ℕ) (p : ProbeDecl) (hp : (n : ℤ) * p.schedule = j) (dur : List Char) :
    padTo 8 (fmtInt (n * p.schedule)) ++ padTo 13 (fmtInt n) ++ padTo 25 (typeComp p) ++ padTo 21 (probeShape p)
      ++ padTo 18 (showTime (j * dt)) ++ padTo 18 dur ++ ['\n'] = lineText showTime dt ⟨j, n, p⟩ dur := by
  unfold lineText lineFields
  rw [hp, fmtInt_natCast, fmtInt_natCast, typeComp_eq, probeShape_eq]
  simp [List.append_assoc]

/-- One call of `dump_data` -/
theorem reportData_eq (showTime : ℝ → List Char) (dur : ℕ → List Char) {dt : ℝ} (hdt : 0 < dt) (j : ℕ) (hj : j < 2 ^ 31)
    (ps : List ProbeDecl) (hs : ∀ p ∈ ps, 0 < p.schedule)
    (hfit : ∀ p ∈ ps, (typeComp p).length < 100 ∧ (probeShape p).length < 100) (T : Table) :
    reportData showTime dur (0 + j * dt) dt (ps.map fun p => (p, savedFrames p j)) T =
      some (ps.map fun p => (p, savedFrames p (j + 1)),
        ⟨T.printed + ((ps.filter fun p => p.schedule ∣ (j : ℤ)).map fun p => (⟨j, j / p.schedule.toNat, p⟩ : Line)).length,
          T.text ++ tableText showTime dur dt T.printed
            ((ps.filter fun p => p.schedule ∣ (j : ℤ)).map fun p => ⟨j, j / p.schedule.toNat, p⟩)⟩) := by
  have htr : truncZ ((0 + j * dt) / dt) = j := by
    rw [zero_add, mul_div_assoc, div_self hdt.ne', mul_one, truncZ_nonneg (by positivity), Int.floor_natCast]
  induction ps generalizing T with
  | nil => simp [reportData, tableText]
  | cons p ps ih =>
    have hp := hs p (List.mem_cons_self ..)
    obtain ⟨f1, f2⟩ := hfit p (List.mem_cons_self ..)
    have hstep := savedFrames_succ p hp j
    have ih' := ih (fun q hq => hs q (List.mem_cons_of_mem _ hq)) (fun q hq => hfit q (List.mem_cons_of_mem _ hq))
    rw [List.map_cons, reportData, reportOne, if_neg (by omega), htr]
    by_cases hd : p.schedule ∣ (j : ℤ)
    · have hn := hstep.2 hd
      have hmul : ((savedFrames p j : ℕ) : ℤ) * p.schedule = j := by
        rw [hn]
        obtain ⟨s, hs'⟩ := Int.eq_ofNat_of_zero_le hp.le
        rw [hs'] at hd ⊢
        rw [show ((s : ℤ)).toNat = s by omega]
        exact_mod_cast Nat.div_mul_cancel (Int.natCast_dvd_natCast.1 hd)
      rw [if_pos (Int.tmod_eq_zero_of_dvd hd), printData, if_pos ⟨f1, f2, by rw [hmul, abs_of_nonneg (by omega)]; omega⟩, Option.map_some,
        Option.bind_some, ih', Option.map_some]
      rw [List.filter_cons_of_pos (by simpa using hd)]
      rw [List.map_cons, List.map_cons, List.length_cons, hstep.1, if_pos hd]
      simp only [Option.some.injEq, Prod.mk.injEq, Table.mk.injEq, true_and]
      refine ⟨by omega, ?_⟩
      unfold tableText
      rw [List.zipIdx_cons, List.flatMap_cons]
      simp only
      rw [← lineText_eq showTime dt j (j / p.schedule.toNat) p (by rw [← hn]; exact hmul), ← hn]
      simp [List.append_assoc]
    · rw [if_neg (fun h => hd (Int.dvd_of_tmod_eq_zero h)), Option.bind_some, ih', Option.map_some]
      rw [List.filter_cons_of_neg (by simpa using hd), List.map_cons, hstep.1, if_neg hd]
      rfl

/-- **C106** The table has exactly one line for each frame that is saved, in order, with the number of the iteration, the number of the
frame, the probe and the time of the iteration, and a header before each twentieth line. -/
theorem C106_table (showTime : ℝ → List Char) (dur : ℕ → List Char) (dt : ℝ) (hdt : 0 < dt) (ps : List ProbeDecl)
    (hs : ∀ p ∈ ps, 0 < p.schedule) (hp : ∀ p ∈ ps, p.IsInt ∧ ∃ a b r, newProbe a b p = some r) (N : ℕ) (hN : N ≤ 2 ^ 31) :
    reportRun showTime dur 0 dt ps N =
      some (ps.map fun p => (p, savedFrames p N),
        ⟨(tableLines ps N).length, tableText showTime dur dt 0 (tableLines ps N)⟩) := by
  have hfit : ∀ p ∈ ps, (typeComp p).length < 100 ∧ (probeShape p).length < 100 := by
    intro p h
    obtain ⟨h1, a, b, r, h2⟩ := hp p h
    exact C106_buffers a b r p h2 h1
  induction N with
  | zero =>
    simp only [reportRun, tableLines, List.range_zero, List.flatMap_nil, List.length_nil, tableText, List.zipIdx_nil]
    congr 2
    apply List.map_congr_left
    intro p h
    have := hs p h
    rw [savedFrames, Nat.zero_add, Nat.div_eq_of_lt (by omega)]
  | succ N ih =>
    rw [reportRun, ih (by omega), Option.bind_some, reportData_eq showTime dur hdt N (by omega) ps hs hfit]
    have e : tableLines ps (N + 1) = tableLines ps N ++
        (ps.filter fun p => p.schedule ∣ (N : ℤ)).map fun p => ⟨N, N / p.schedule.toNat, p⟩ := by
      unfold tableLines
      rw [List.range_succ, List.flatMap_append]
      simp
    rw [e]
    simp only [Option.some.injEq, Prod.mk.injEq, Table.mk.injEq, true_and]
    refine ⟨by rw [List.length_append], ?_⟩
    unfold tableText
    rw [List.zipIdx_append, List.flatMap_append]
    simp

/-- `dump_data` counts the frames of each probe as the table does. -/
theorem dumpData_numbers {G : Geom} {fpf : ℕ} {root : List Char} {dt : ℝ} (hdt : 0 < dt) {S : Snap} (j : ℕ) (ps : List ProbeDecl)
    (hs : ∀ p ∈ ps, 0 < p.schedule) {fs : OutFS} {rho : Grid} {st : List (ProbeDecl × ℕ) × OutFS}
    (h : dumpData G fpf root (0 + j * dt) dt S (ps.map fun p => (p, savedFrames p j)) fs rho = some st) :
    st.1 = ps.map fun p => (p, savedFrames p (j + 1)) := by
  have htr : truncZ ((0 + j * dt) / dt) = j := by
    rw [zero_add, mul_div_assoc, div_self hdt.ne', mul_one, truncZ_nonneg (by positivity), Int.floor_natCast]
  induction ps generalizing fs rho st with
  | nil =>
    simp only [List.map_nil, dumpData, Option.some.injEq] at h
    rw [← h]
    rfl
  | cons p ps ih =>
    have hp := hs p (List.mem_cons_self ..)
    have hstep := (savedFrames_succ p hp j).1
    rw [List.map_cons, dumpData] at h
    obtain ⟨x, hx, h⟩ := Option.bind_eq_some_iff.1 h
    obtain ⟨y, hy, rfl⟩ := Option.map_eq_some_iff.1 h
    rw [List.map_cons]
    simp only
    rw [ih (fun q hq => hs q (List.mem_cons_of_mem _ hq)) hy]
    congr 2
    rw [dumpOne, if_neg (by omega), htr] at hx
    by_cases hd : p.schedule ∣ (j : ℤ)
    · rw [if_pos (Int.tmod_eq_zero_of_dvd hd)] at hx
      split_ifs at hx
      obtain ⟨z, -, rfl⟩ := Option.map_eq_some_iff.1 hx
      rw [hstep, if_pos hd]
    · rw [if_neg (fun h => hd (Int.dvd_of_tmod_eq_zero h)), Option.some.injEq] at hx
      rw [← hx, hstep, if_neg hd]
      rfl

theorem outputRun_numbers {G : Geom} {fpf : ℕ} {root : List Char} {dt : ℝ} (hdt : 0 < dt) {S : ℕ → Snap} (ps : List ProbeDecl)
    (hs : ∀ p ∈ ps, 0 < p.schedule) {fs0 : OutFS} (N : ℕ) {st : List (ProbeDecl × ℕ) × OutFS}
    (h : outputRun G fpf root 0 dt S ps fs0 N = some st) : st.1 = ps.map fun p => (p, savedFrames p N) := by
  induction N generalizing st with
  | zero =>
    simp only [outputRun, Option.some.injEq] at h
    rw [← h]
    apply List.map_congr_left
    intro p hp
    have := hs p hp
    rw [savedFrames, Nat.zero_add, Nat.div_eq_of_lt (by omega)]
  | succ N ih =>
    rw [outputRun] at h
    obtain ⟨x, hx, h⟩ := Option.bind_eq_some_iff.1 h
    rw [ih hx] at h
    exact dumpData_numbers hdt N ps hs h

/-- **C106** The numbers of frames in the table are those under which the frames were written: after the same iterations both
have counted the same frames of each probe. -/
theorem C106_numbers (showTime : ℝ → List Char) (dur : ℕ → List Char) (G : Geom) (fpf : ℕ) (root : List Char) (dt : ℝ) (hdt : 0 < dt)
    (S : ℕ → Snap) (ps : List ProbeDecl) (hs : ∀ p ∈ ps, 0 < p.schedule)
    (hp : ∀ p ∈ ps, p.IsInt ∧ ∃ a b r, newProbe a b p = some r) (fs0 : OutFS) (N : ℕ) (hN : N ≤ 2 ^ 31)
    (st : List (ProbeDecl × ℕ) × OutFS) (h : outputRun G fpf root 0 dt S ps fs0 N = some st) :
    ∃ T, reportRun showTime dur 0 dt ps N = some (st.1, T) ∧ T.printed = (st.1.map Prod.snd).sum := by
  refine ⟨_, by rw [outputRun_numbers hdt ps hs N h]; exact C106_table showTime dur dt hdt ps hs hp N hN, ?_⟩
  rw [outputRun_numbers hdt ps hs N h]
  simp only [List.map_map]
  clear h hp hN
  induction N with
  | zero =>
    have : ps.map (Prod.snd ∘ fun p => (p, savedFrames p 0)) = ps.map fun _ => 0 := by
      apply List.map_congr_left
      intro p hp
      have := hs p hp
      simp only [Function.comp]
      rw [savedFrames, Nat.zero_add, Nat.div_eq_of_lt (by omega)]
    rw [this]
    simp [tableLines]
  | succ N ih =>
    have e : tableLines ps (N + 1) = tableLines ps N ++
        (ps.filter fun p => p.schedule ∣ (N : ℤ)).map fun p => ⟨N, N / p.schedule.toNat, p⟩ := by
      unfold tableLines
      rw [List.range_succ, List.flatMap_append]
      simp
    rw [e, List.length_append, ih, List.length_map]
    clear ih e
    induction ps with
    | nil => rfl
    | cons p ps ih =>
      have h1 := (savedFrames_succ p (hs p (List.mem_cons_self ..)) N).1
      have h2 := ih (fun q hq => hs q (List.mem_cons_of_mem _ hq))
      simp only [List.map_cons, List.sum_cons, Function.comp] at h2 ⊢
      rw [h1]
      by_cases hd : p.schedule ∣ (N : ℤ)
      · rw [List.filter_cons_of_pos (by simpa using hd), if_pos hd, List.length_cons]
        omega
      · rw [List.filter_cons_of_neg (by simpa using hd), if_neg hd]
        omega

/-! ## Columns -/

theorem wordsFrom_append {cur s rest : List Char} (h : NoBlank s) : wordsFrom cur (s ++ rest) = wordsFrom (cur ++ s) rest := by
  induction s generalizing cur with
  | nil => simp
  | cons c s ih =>
    have hc := h c (List.mem_cons_self ..)
    rw [List.cons_append, wordsFrom, if_neg (by tauto), ih fun d hd => h d (List.mem_cons_of_mem _ hd), List.append_assoc]
    rfl

theorem words_blanks (k : ℕ) (rest : List Char) : wordsFrom [] (List.replicate k ' ' ++ rest) = words rest := by
  induction k with
  | zero => rfl
  | succ k ih =>
    rw [List.replicate_succ, List.cons_append, wordsFrom, if_pos (Or.inl rfl), if_pos rfl]
    exact ih

theorem words_column {s : List Char} (h : NoBlank s) (hs : s ≠ []) (k : ℕ) (rest : List Char) :
    words (s ++ (List.replicate (k + 1) ' ' ++ rest)) = s :: words rest := by
  unfold words
  rw [wordsFrom_append h, List.nil_append, List.replicate_succ, List.cons_append, wordsFrom, if_pos (Or.inl rfl), if_neg hs, words_blanks]
  rfl

theorem words_padTo {s : List Char} (h : NoBlank s) (hs : s ≠ []) {w : ℕ} (hw : s.length < w) (rest : List Char) :
    words (padTo w s ++ rest) = s :: words rest := by
  unfold padTo
  rw [List.append_assoc, show w - s.length = (w - s.length - 1) + 1 by omega, words_column h hs]

theorem words_end {s b : List Char} (hb : ∀ c ∈ b, c = ' ' ∨ c = '\n') : words (s ++ b) = words s := by
  have key : ∀ cur, wordsFrom cur b = if cur = [] then [] else [cur] := by
    induction b with
    | nil => intro cur; rfl
    | cons c b ih =>
      intro cur
      have ih' := ih fun d hd => hb d (List.mem_cons_of_mem _ hd)
      rw [wordsFrom, if_pos (hb c (List.mem_cons_self ..)), ih' []]
      simp
  unfold words
  generalize ([] : List Char) = cur
  induction s generalizing cur with
  | nil => rw [List.nil_append, key, wordsFrom]
  | cons c s ih => rw [List.cons_append, wordsFrom, wordsFrom, ih, ih]

theorem dec_noBlank (n : ℕ) : NoBlank (dec n) := by
  intro c hc
  have := dec_digits n c hc
  constructor <;> rintro rfl <;> simp at this

theorem dec_ne_nil (n : ℕ) : dec n ≠ [] := by
  have := intText_pos n
  rw [fmtInt_natCast] at this
  exact List.length_pos_iff.1 this

theorem fmtInt_noBlank (n : ℤ) : NoBlank (fmtInt n) := by
  unfold fmtInt
  split_ifs
  · intro c hc
    rcases List.mem_cons.1 hc with rfl | hc
    · decide
    · exact dec_noBlank _ c hc
  · exact dec_noBlank _

theorem noBlank_append {s t : List Char} (h1 : NoBlank s) (h2 : NoBlank t) : NoBlank (s ++ t) := by
  intro c hc
  rcases List.mem_append.1 hc with h | h
  · exact h1 c h
  · exact h2 c h

theorem probeShape_noBlank (p : ProbeDecl) : NoBlank (probeShape p) := by
  have h1 : ∀ c : Char, c ≠ ' ' ∧ c ≠ '\n' → NoBlank [c] := by
    intro c hc d hd
    obtain rfl := List.mem_singleton.1 hd
    exact hc
  have a1 := h1 '[' (by decide)
  have a2 := h1 ']' (by decide)
  have a3 := h1 ',' (by decide)
  unfold probeShape
  cases p.kind <;> simp only <;>
    repeat' first | exact fmtInt_noBlank _ | assumption | apply noBlank_append

theorem name_noBlank {p : ProbeDecl} (h1 : NoBlank p.component) (h2 : NoBlank p.specie) :
    NoBlank (kindName p.kind ++ '/' :: p.resultComponent) := by
  apply noBlank_append
  · cases p.kind <;> (intro c hc; revert c; decide)
  · intro c hc
    rcases List.mem_cons.1 hc with rfl | hc
    · decide
    · unfold ProbeDecl.resultComponent at hc
      split_ifs at hc
      · exact h1 c hc
      · rcases List.mem_append.1 hc with h | h
        · exact h1 c h
        · rcases List.mem_cons.1 h with rfl | h
          · decide
          · exact h2 c h

/-- What the stream writes for a time: a word of less than 18 characters -/
def TimeText (showTime : ℝ → List Char) : Prop := ∀ t, NoBlank (showTime t) ∧ showTime t ≠ [] ∧ (showTime t).length < 18

/-- **C106** In runs of at most ten million iterations a script can split each line at its blanks, when name and place of the probe
are shorter than their columns. -/
theorem C106_columns_partial (showTime : ℝ → List Char) (hshow : TimeText showTime) (dt : ℝ) (ps : List ProbeDecl) (N : ℕ)
    (hN : N ≤ 10 ^ 7) (l : Line) (hl : l ∈ tableLines ps N) (hc : NoBlank l.probe.component) (hsp : NoBlank l.probe.specie)
    (hname : (typeComp l.probe).length < 25) (hshape : (probeShape l.probe).length < 21) (dur : List Char) :
    words (lineText showTime dt l dur) = lineFields showTime dt l ++ words dur := by
  unfold tableLines at hl
  obtain ⟨j, hj, hl⟩ := List.mem_flatMap.1 hl
  obtain ⟨p, -, rfl⟩ := List.mem_map.1 hl
  have hj' := List.mem_range.1 hj
  have d1 : (dec j).length ≤ 7 := dec_length (by norm_num) (by omega)
  have d2 : (dec (j / p.schedule.toNat)).length ≤ 7 :=
    dec_length (by norm_num) (lt_of_le_of_lt (Nat.div_le_self _ _) (by omega))
  rw [typeComp_eq] at hname
  have hb := probeShape_noBlank p
  rw [probeShape_eq] at hshape hb
  obtain ⟨t1, t2, t3⟩ := hshow (j * dt)
  unfold lineText lineFields
  simp only [List.zip_cons_cons, List.zip_nil_right, List.flatMap_cons, List.flatMap_nil, List.append_nil, List.append_assoc]
  rw [words_padTo (dec_noBlank _) (dec_ne_nil _) (by omega), words_padTo (dec_noBlank _) (dec_ne_nil _) (by omega),
    words_padTo (name_noBlank hc hsp) (by simp) hname]
  rw [words_padTo hb (by simp) hshape, words_padTo t1 t2 t3]
  unfold padTo
  rw [List.append_assoc, words_end]
  · simp
  · intro c hc
    rcases List.mem_append.1 hc with h | h
    · exact Or.inl (List.eq_of_mem_replicate h)
    · exact Or.inr (List.mem_singleton.1 h)

theorem padTo_long {s : List Char} {w : ℕ} (h : w ≤ s.length) : padTo w s = s := by
  unfold padTo
  rw [Nat.sub_eq_zero_of_le h]
  simp

/-- a probe of the density of a species with a name of eleven letters -/
def longProbe : ProbeDecl :=
  ⟨.frame, ['d', 'e', 'n', 's', 'i', 't', 'y'], ['h', 'y', 'd', 'r', 'o', 'g', 'e', 'n', 'i', 'o', 'n'], 0, 0, 10, 20, 5⟩

/-- The columns of the name and the place of a probe run together when the name has 25 characters. -/
theorem C106_columns_violated : (∃ r, newProbe ['.'] ['o'] longProbe = some r) ∧ longProbe.IsInt ∧
    ∀ (showTime : ℝ → List Char), TimeText showTime → ∀ (dt : ℝ) (N : ℕ), N ≤ 10 ^ 7 → ∀ l ∈ tableLines [longProbe] N, ∀ dur,
      words (lineText showTime dt l dur) =
        [dec l.iter, dec l.frame,
          ['f', 'r', 'a', 'm', 'e', '/', 'd', 'e', 'n', 's', 'i', 't', 'y', '/', 'h', 'y', 'd', 'r', 'o', 'g', 'e', 'n', 'i', 'o', 'n',
            '[', '0', ',', '0', ',', '1', '0', ',', '2', '0', ']'], showTime (l.iter * dt)] ++ words dur := by
  refine ⟨⟨dataRoot ['.'] ['o'], by decide⟩, by unfold ProbeDecl.IsInt longProbe; norm_num, ?_⟩
  intro showTime hshow dt N hN l hl dur
  unfold tableLines at hl
  obtain ⟨j, hj, hl⟩ := List.mem_flatMap.1 hl
  obtain ⟨p, hp, rfl⟩ := List.mem_map.1 hl
  obtain rfl : p = longProbe := List.mem_singleton.1 (List.mem_filter.1 hp).1
  have hj' := List.mem_range.1 hj
  have d1 : (dec j).length ≤ 7 := dec_length (by norm_num) (by omega)
  have d2 : (dec (j / longProbe.schedule.toNat)).length ≤ 7 :=
    dec_length (by norm_num) (lt_of_le_of_lt (Nat.div_le_self _ _) (by omega))
  obtain ⟨t1, t2, t3⟩ := hshow (j * dt)
  have e1 : kindName longProbe.kind ++ '/' :: longProbe.resultComponent =
      ['f', 'r', 'a', 'm', 'e', '/', 'd', 'e', 'n', 's', 'i', 't', 'y', '/', 'h', 'y', 'd', 'r', 'o', 'g', 'e', 'n', 'i', 'o', 'n'] := by
    decide
  have e2 : '[' :: ([','].intercalate ((shapeNumbers longProbe).map fmtInt)) ++ [']'] =
      ['[', '0', ',', '0', ',', '1', '0', ',', '2', '0', ']'] := by decide
  unfold lineText lineFields
  simp only [List.zip_cons_cons, List.zip_nil_right, List.flatMap_cons, List.flatMap_nil, List.append_nil, List.append_assoc]
  rw [words_padTo (dec_noBlank _) (dec_ne_nil _) (by omega), words_padTo (dec_noBlank _) (dec_ne_nil _) (by omega), e1, e2,
    padTo_long (by simp), ← List.append_assoc]
  have e3 : ∀ s : List Char, s ++ padTo 21 ['[', '0', ',', '0', ',', '1', '0', ',', '2', '0', ']'] =
      padTo (s.length + 21) (s ++ ['[', '0', ',', '0', ',', '1', '0', ',', '2', '0', ']']) := by
    intro s
    unfold padTo
    rw [List.append_assoc, List.length_append]
    congr 3
    simp
  rw [e3, words_padTo _ (by simp) (by simp), words_padTo t1 t2 t3]
  · unfold padTo
    rw [List.append_assoc, words_end]
    · simp
    · intro c hc
      rcases List.mem_append.1 hc with h | h
      · exact Or.inl (List.eq_of_mem_replicate h)
      · exact Or.inr (List.mem_singleton.1 h)
  · intro c hc
    revert c
    decide

/-- From iteration 10000000 on the numbers of the iteration and of the frame run together. -/
theorem C106_long_run_violated (showTime : ℝ → List Char) (dt : ℝ) (l : Line) (h1 : 10 ^ 7 ≤ l.iter) (h2 : l.frame < 10 ^ 12)
    (dur : List Char) : (words (lineText showTime dt l dur)).head? = some (dec l.iter ++ dec l.frame) := by
  have d1 : 8 ≤ (dec l.iter).length := by
    by_contra h
    have := (Nat.length_toDigits_le_iff (b := 10) (n := l.iter) (k := 7) (by norm_num) (by norm_num)).1 (by unfold dec at h; omega)
    omega
  have d2 : (dec l.frame).length ≤ 12 := dec_length (by norm_num) h2
  unfold lineText lineFields
  simp only [List.zip_cons_cons, List.zip_nil_right, List.flatMap_cons, List.flatMap_nil, List.append_nil, List.append_assoc]
  rw [padTo_long d1, ← List.append_assoc]
  have e3 : dec l.iter ++ padTo 13 (dec l.frame) = padTo ((dec l.iter).length + 13) (dec l.iter ++ dec l.frame) := by
    unfold padTo
    rw [List.append_assoc, List.length_append]
    congr 3
    omega
  rw [e3, words_padTo (noBlank_append (dec_noBlank _) (dec_noBlank _)) (by simp [dec_ne_nil]) (by rw [List.length_append]; omega)]
  rfl

/-- a probe of the density of a species that the configuration does not have -/
def absentProbe : ProbeDecl := ⟨.frame, ['d', 'e', 'n', 's', 'i', 't', 'y'], ['i', 'o', 'n'], 0, 0, 10, 20, 1⟩

/-- The table says that a frame was saved when nothing was written. -/
theorem C106_saved_violated : (∃ r, newProbe ['.'] ['o'] absentProbe = some r) ∧ absentProbe.IsInt ∧
    ∀ (showTime : ℝ → List Char) (dur : ℕ → List Char) (G : Geom) (fpf : ℕ) (root : List Char) (dt : ℝ) (S : ℕ → Snap) (fs0 : OutFS)
      (N : ℕ), 0 < fpf → 0 < dt → N ≤ 2 ^ 31 → (∀ j, (S j).arr absentProbe.component = none) →
      (∀ j, absentProbe.specie ∉ (S j).dens.map Prod.fst) →
      outputRun G fpf root 0 dt S [absentProbe] fs0 N = some ([(absentProbe, N)], fs0) ∧
      reportRun showTime dur 0 dt [absentProbe] N = some ([(absentProbe, N)],
        ⟨N, tableText showTime dur dt 0 ((List.range N).map fun j => ⟨j, j, absentProbe⟩)⟩) := by
  have hnew : ∃ r, newProbe ['.'] ['o'] absentProbe = some r := ⟨dataRoot ['.'] ['o'], by decide⟩
  have hint : absentProbe.IsInt := by unfold ProbeDecl.IsInt absentProbe; norm_num
  refine ⟨hnew, hint, ?_⟩
  intro showTime dur G fpf root dt S fs0 N hf hdt hN ha hd
  have hsaved : ∀ n, savedFrames absentProbe n = n := by
    intro n
    show (n + 1 - 1) / 1 = n
    simp
  have hs : ∀ p ∈ [absentProbe], 0 < p.schedule := by
    intro p hp
    obtain rfl := List.mem_singleton.1 hp
    decide
  constructor
  · clear hN
    induction N with
    | zero => rfl
    | succ N ih =>
      have hfold : ∀ l : List (List Char × Grid), absentProbe.specie ∉ l.map Prod.fst →
          l.foldlM (fun fs s => if s.1 = absentProbe.specie then writeArr G.nr G.nz root absentProbe (dec (N / fpf)) s.2 fs else some fs) fs0
            = some fs0 := by
        intro l
        induction l with
        | nil => intro _; rfl
        | cons x l ihl =>
          intro h
          rw [List.map_cons, List.mem_cons, not_or] at h
          rw [List.foldlM_cons, if_neg fun h' => h.1 h'.symm]
          exact ihl h.2
      rw [outputRun, ih, Option.bind_some, dumpData, dumpOne, if_neg (by decide), if_pos (by simp [absentProbe]), if_neg hf.ne', dumpWrite]
      simp only [ha N]
      rw [if_neg (by decide), if_neg (by decide), if_pos (by decide), hfold _ (hd N)]
      rfl
  · rw [C106_table showTime dur dt hdt [absentProbe] hs (fun p hp => by
      obtain rfl := List.mem_singleton.1 hp
      exact ⟨hint, _, _, hnew⟩) N hN]
    have e : tableLines [absentProbe] N = (List.range N).map fun j => ⟨j, j, absentProbe⟩ := by
      unfold tableLines
      rw [List.map_eq_flatMap]
      congr 1
      funext j
      have : absentProbe.schedule ∣ (j : ℤ) := one_dvd _
      rw [List.filter_cons_of_pos (by simpa using this)]
      have e1 : j / absentProbe.schedule.toNat = j := Nat.div_one j
      simp [e1]
    rw [e]
    simp [hsaved]

/-! Not vacuous: a probe of a field and the macroparticles of a species, a run of 100 iterations, times written as one letter. -/

example : ∃ ps : List ProbeDecl, ps.length = 2 ∧ (∀ p ∈ ps, 0 < p.schedule) ∧
    (∀ p ∈ ps, p.IsInt ∧ ∃ a b r, newProbe a b p = some r) ∧ (tableLines ps 100).length = 30 ∧
    (∀ l ∈ tableLines ps 100, NoBlank l.probe.component ∧ NoBlank l.probe.specie ∧ (typeComp l.probe).length < 25 ∧
      (probeShape l.probe).length < 21) ∧ TimeText (fun _ => ['0']) := by
  refine ⟨[⟨.frame, ['E', '_', 'z'], noneText, 0, 0, 31, 255, 5⟩, ⟨.mpframe, ['i', 'o', 'n', 's'], noneText, 0, 0, 31, 255, 10⟩], rfl,
    by decide, ?_, by decide +kernel, ?_, ?_⟩
  · intro p hp
    simp only [List.mem_cons, List.not_mem_nil, or_false] at hp
    rcases hp with rfl | rfl
    · exact ⟨by unfold ProbeDecl.IsInt; norm_num, ['.'], ['o'], dataRoot ['.'] ['o'], by decide⟩
    · exact ⟨by unfold ProbeDecl.IsInt; norm_num, ['.'], ['o'], dataRoot ['.'] ['o'], by decide⟩
  · intro l hl
    unfold tableLines at hl
    obtain ⟨j, hj, hl⟩ := List.mem_flatMap.1 hl
    obtain ⟨p, hp', rfl⟩ := List.mem_map.1 hl
    have hp := (List.mem_filter.1 hp').1
    clear hl hj hp'
    show NoBlank p.component ∧ NoBlank p.specie ∧ (typeComp p).length < 25 ∧ (probeShape p).length < 21
    simp only [List.mem_cons, List.not_mem_nil, or_false] at hp
    rcases hp with rfl | rfl
    · exact ⟨by unfold NoBlank; decide, by unfold NoBlank; decide, by decide, by decide⟩
    · exact ⟨by unfold NoBlank; decide, by unfold NoBlank; decide, by decide, by decide⟩
  · intro t
    beta_reduce
    exact ⟨by unfold NoBlank; decide, by decide, by decide⟩

end Verif
