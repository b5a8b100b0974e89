import Verif.WindowMean
import Verif.TimeSeriesProps
import Mathlib.Data.List.ReduceOption

/-!
# The mean temperature of a window over time (C120)
-/

namespace Verif

/-! ## Specification -/

/-- The mean of the temperature over the cells of the window `(r0, z0, r1, z1)` that have one; zero if there are none -/
noncomputable def meanOver (v : ℤ → ℤ → Option ℝ) (w : ℤ × ℤ × ℤ × ℤ) : ℝ :=
  (∑ x ∈ (Finset.Ico w.1 w.2.2.1 ×ˢ Finset.Ico w.2.1 w.2.2.2) with (v x.1 x.2).isSome = true, (v x.1 x.2).getD 0) /
    (((Finset.Ico w.1 w.2.2.1 ×ˢ Finset.Ico w.2.1 w.2.2.2).filter fun x => (v x.1 x.2).isSome = true).card : ℝ)

/-- The data set of the temperature of a species -/
def temperatureOf (specie : List Char) : List Char := "T/".toList ++ specie

/-- The reader gives the frames from `a` to `b` of the probe `p` as they were saved: `D` has the values by data set, frame, row and column. -/
def ReadsGaps (rd : GapReader) (D : List Char → ℤ → ℤ → ℤ → Option ℝ) (p : PyProbe) (a b : ℤ) : Prop :=
  rd (temperatureOf p.specie) p.window a b = some ((intRange a b).map fun n => (intRange p.r_start p.r_end).map fun i =>
    (intRange p.z_start p.z_end).map fun k => D (temperatureOf p.specie) n i k)

/-- The reader gives the pieces of the probe `p`: `fpf` frames at a time, beginning at `lo`, not beyond `hi`.  Only the calls of the notebook are named; that the reader of the
plain files gives them is shown by `C120_plain_reads` and `C120_plain_pieces` in PlainSeries. -/
def GapPieces (rd : GapReader) (D : List Char → ℤ → ℤ → ℤ → Option ℝ) (p : PyProbe) (fpf lo hi : ℤ) : Prop :=
  ∀ j : ℕ, lo + (j + 1) * fpf ≤ hi → ReadsGaps rd D p (lo + j * fpf) (lo + j * fpf + fpf)

namespace WindowMean

open TimeSeries

theorem sum_range (f : ℤ → ℝ) (a b : ℤ) : ((intRange a b).map f).sum = ∑ i ∈ Finset.Ico a b, f i := by
  unfold intRange
  rw [List.map_map]
  by_cases h : a ≤ b
  · obtain ⟨n, rfl⟩ := Int.le.dest h
    rw [show (a + n - a).toNat = n by omega]
    clear h
    induction n with
    | zero => simp
    | succ n ih =>
      rw [List.range_succ, List.map_append, List.sum_append, ih]
      push_cast
      rw [← add_assoc, ← Finset.insert_Ico_right_eq_Ico_add_one (by omega), Finset.sum_insert (by simp)]
      simp [Function.comp, add_comm]
  · rw [show (b - a).toNat = 0 by omega, Finset.Ico_eq_empty_of_le (by omega)]
    simp

theorem reduce_sum : ∀ l : List (Option ℝ), l.reduceOption.sum = (l.map fun x => x.getD 0).sum
  | [] => rfl
  | none :: l => by simpa using reduce_sum l
  | some x :: l => by simp [reduce_sum l]

theorem reduce_length : ∀ l : List (Option ℝ), (l.reduceOption.length : ℝ) = (l.map fun x => if x.isSome = true then (1 : ℝ) else 0).sum
  | [] => by simp
  | none :: l => by simpa using reduce_length l
  | some x :: l => by simp [← reduce_length l, add_comm]

theorem flatten_sum {α : Type} (g : α → ℝ) : ∀ l : List (List α), (l.flatten.map g).sum = (l.map fun r => (r.map g).sum).sum
  | [] => rfl
  | r :: l => by rw [List.flatten_cons, List.map_append, List.sum_append, flatten_sum g l, List.map_cons, List.sum_cons]

theorem window_sum (g : Option ℝ → ℝ) (v : ℤ → ℤ → Option ℝ) (r0 z0 r1 z1 : ℤ) :
    (((intRange r0 r1).map fun i => (intRange z0 z1).map fun k => v i k).flatten.map g).sum = ∑ x ∈ Finset.Ico r0 r1 ×ˢ Finset.Ico z0 z1, g (v x.1 x.2) := by
  rw [flatten_sum, List.map_map, sum_range, Finset.sum_product]
  refine Finset.sum_congr rfl fun i _ => ?_
  simp only [Function.comp, List.map_map]
  exact sum_range (fun k => g (v i k)) z0 z1

theorem mean_window (v : ℤ → ℤ → Option ℝ) (r0 z0 r1 z1 : ℤ) :
    frameMean ((intRange r0 r1).map fun i => (intRange z0 z1).map fun k => v i k) = meanOver v (r0, z0, r1, z1) := by
  have e1 := window_sum (fun x => x.getD 0) v r0 z0 r1 z1
  have e2 := window_sum (fun x => if x.isSome = true then (1 : ℝ) else 0) v r0 z0 r1 z1
  rw [← reduce_sum] at e1
  rw [← reduce_length] at e2
  have e3 : (((intRange r0 r1).map fun i => (intRange z0 z1).map fun k => v i k).flatten.reduceOption.sum) / _ = _ := congrArg₂ (· / ·) e1 e2
  unfold frameMean meanOver
  dsimp only
  rw [Finset.card_filter, Finset.sum_filter]
  push_cast
  have e4 : ∀ x : ℤ × ℤ, (if (v x.1 x.2).isSome = true then (v x.1 x.2).getD 0 else 0) = (v x.1 x.2).getD 0 := by
    intro x
    cases v x.1 x.2 <;> simp
  simp only [e4]
  split_ifs with h
  · rw [h] at e2
    rw [← e2]
    simp
  · exact e3

theorem pyIndex_pos (n : ℕ) {x : ℤ} (h : 0 ≤ x) : pyIndex n x = min x.toNat n := by
  unfold pyIndex
  rw [if_neg (by omega)]
  omega

theorem slice_range {α : Type} (f : ℤ → α) {a b x y : ℤ} (hx : 0 ≤ x) (hy : 0 ≤ y) :
    pySlice ((intRange a b).map f) x y = (intRange (a + x) (min (a + y) b)).map f := by
  apply List.ext_getElem?
  intro k
  unfold pySlice
  rw [pyIndex_pos _ hx, pyIndex_pos _ hy, List.getElem?_take, List.getElem?_drop, getElem_range, getElem_range, List.length_map, intRange_length]
  by_cases h1 : k < (min (a + y) b - (a + x)).toNat
  · rw [if_pos h1, if_pos (by omega), if_pos (by omega)]
    congr 2
    omega
  · rw [if_neg h1]
    by_cases h2 : k < min y.toNat (b - a).toNat - min x.toNat (b - a).toNat
    · rw [if_pos h2, if_neg (by omega)]
    · rw [if_neg h2]

/-- the window that is taken from that of the probe -/
def shifted (w : ℤ × ℤ × ℤ × ℤ) (p : PyProbe) : ℤ × ℤ × ℤ × ℤ :=
  (p.r_start + w.1, p.z_start + w.2.1, min (p.r_start + w.2.2.1) p.r_end, min (p.z_start + w.2.2.2) p.z_end)

/-- a window without negative numbers -/
def Positive (w : ℤ × ℤ × ℤ × ℤ) : Prop := 0 ≤ w.1 ∧ 0 ≤ w.2.1 ∧ 0 ≤ w.2.2.1 ∧ 0 ≤ w.2.2.2

theorem crop_range (v : ℤ → ℤ → Option ℝ) {w : ℤ × ℤ × ℤ × ℤ} {p : PyProbe} (hw : Positive w) :
    cropFrame w ((intRange p.r_start p.r_end).map fun i => (intRange p.z_start p.z_end).map fun k => v i k) =
      (intRange (shifted w p).1 (shifted w p).2.2.1).map fun i => (intRange (shifted w p).2.1 (shifted w p).2.2.2).map fun k => v i k := by
  obtain ⟨h1, h2, h3, h4⟩ := hw
  unfold cropFrame shifted
  dsimp only
  rw [slice_range _ h1 h3, List.map_map]
  apply List.map_congr_left
  intro i _
  exact slice_range _ h2 h4

/-- the frame that is collected -/
def cropped (D : List Char → ℤ → ℤ → ℤ → Option ℝ) (w : ℤ × ℤ × ℤ × ℤ) (p : PyProbe) (n : ℤ) : GapFrame :=
  (intRange (shifted w p).1 (shifted w p).2.2.1).map fun i => (intRange (shifted w p).2.1 (shifted w p).2.2.2).map fun k => D (meanName p) n i k

theorem piece_read {rd : GapReader} {D : List Char → ℤ → ℤ → ℤ → Option ℝ} {a b : ℤ} {w : ℤ × ℤ × ℤ × ℤ} {p : PyProbe} (hw : Positive w)
    (hR : ReadsGaps rd D p a b) :
    ∃ l, rd (meanName p) p.window a b = some l ∧ l.map (cropFrame w) = (intRange a b).map (cropped D w p) := by
  refine ⟨_, hR, ?_⟩
  rw [List.map_map]
  apply List.map_congr_left
  intro n _
  exact crop_range _ hw

theorem pieces_list {rd : GapReader} {D : List Char → ℤ → ℤ → ℤ → Option ℝ} {hi fpf start : ℤ} {w : ℤ × ℤ × ℤ × ℤ} {p : PyProbe} (hw : Positive w)
    (hR : GapPieces rd D p fpf start hi) (hf : 0 < fpf) : ∀ n j : ℕ, start + ((j : ℤ) + n) * fpf ≤ hi →
      meanPieces rd fpf w p start ((List.range' j n).map fun (i : ℕ) => start + i * fpf) (.list ((intRange start (start + j * fpf)).map (cropped D w p))) =
      some (.list ((intRange start (start + (j + n) * fpf)).map (cropped D w p)))
  | 0, j, _ => by simp [meanPieces]
  | n + 1, j, h => by
    push_cast at h
    have nn : 0 ≤ (n : ℤ) * fpf := by positivity
    have jj : 0 ≤ (j : ℤ) * fpf := by positivity
    have e : start + ((j : ℤ) + (n + 1)) * fpf = start + (j : ℤ) * fpf + n * fpf + fpf := by ring
    rw [e] at h
    have len : ((intRange start (start + j * fpf)).map (cropped D w p)).length = (j * fpf).toNat := by
      rw [List.length_map, intRange_length]; congr 1; ring
    obtain ⟨l, l1, l2⟩ := piece_read (p := p) hw (hR j (by rw [add_mul, one_mul]; omega))
    rw [List.range'_succ, List.map_cons, meanPieces, l1, Option.bind_some, l2]
    unfold FrameData.assign
    dsimp only
    rw [len, pyIndex_end _ (by omega), pyIndex_end _ (by omega), max_self, ← len, List.take_length, List.drop_length, List.append_nil, ← List.map_append,
      intRange_append (by omega) (by omega), Option.bind_some]
    have := pieces_list (w := w) (p := p) hw hR hf n (j + 1) (by push_cast; linarith)
    push_cast at this ⊢
    rw [show start + (j : ℤ) * fpf + fpf = start + (j + 1) * fpf by ring, this, show ((j : ℤ) + 1 + n) = j + (n + 1) by ring]

theorem window_list {rd : GapReader} {D : List Char → ℤ → ℤ → ℤ → Option ℝ} {a b fpf : ℤ} {w : ℤ × ℤ × ℤ × ℤ} {p : PyProbe} (hw : Positive w)
    (hf : 0 < fpf) (hab : a ≤ b) (hR : GapPieces rd D p fpf a (pieceEnd a b fpf)) :
    (pyRangeStep a b fpf).bind (fun pieces => meanPieces rd fpf w p a pieces (.list [])) =
      some (.list ((intRange a (pieceEnd a b fpf)).map (cropped D w p))) := by
  unfold pyRangeStep
  rw [if_neg hf.ne', if_pos hf, Option.bind_some, List.range_eq_range']
  have q : 0 ≤ (b - a + fpf - 1) / fpf := Int.ediv_nonneg (by omega) hf.le
  have := pieces_list (w := w) (p := p) hw hR hf ((b - a + fpf - 1) / fpf).toNat 0 (by
    unfold pieceEnd; rw [Int.toNat_of_nonneg q]; push_cast; rw [zero_add])
  simp only [Nat.cast_zero, zero_mul, add_zero, zero_add, Int.toNat_of_nonneg q] at this
  rw [show intRange a a = [] by simp [intRange], List.map_nil] at this
  exact this

/-- pieces never make a list shorter -/
theorem pieces_grow {rd : GapReader} {D : List Char → ℤ → ℤ → ℤ → Option ℝ} {fpf start : ℤ} {w : ℤ × ℤ × ℤ × ℤ} {p : PyProbe} (hw : Positive w)
    (hf : 0 < fpf) : ∀ (ps : List ℤ) (l : List GapFrame), (∀ x ∈ ps, start ≤ x ∧ ReadsGaps rd D p x (x + fpf)) →
      ∃ l', meanPieces rd fpf w p start ps (.list l) = some (.list l') ∧ l.length ≤ l'.length
  | [], l, _ => ⟨l, rfl, le_rfl⟩
  | x :: ps, l, h => by
    obtain ⟨h1, h2⟩ := h x (by simp)
    obtain ⟨m, m1, m2⟩ := piece_read (p := p) hw h2
    obtain ⟨l', k1, k2⟩ := pieces_grow (w := w) (p := p) hw hf ps
      (l.take (pyIndex l.length (x - start)) ++ (intRange x (x + fpf)).map (cropped D w p) ++
        l.drop (max (pyIndex l.length (x - start)) (pyIndex l.length (x - start + fpf - 1)))) (fun y hy => h y (by simp [hy]))
    refine ⟨l', ?_, le_trans ?_ k2⟩
    · rw [meanPieces, m1, Option.bind_some, m2]
      exact k1
    · rw [List.length_append, List.length_append, List.length_take, List.length_drop, List.length_map, intRange_length]
      unfold pyIndex
      rw [if_neg (by omega), if_neg (by omega)]
      omega

theorem frames_ok {cfg : PyParams} {t : ℝ × ℝ} {p : PyProbe} (h1 : cfg.step_interval ≠ 0) (h2 : p.schedule ≠ 0) :
    seriesFrames cfg t p = some (frameByTime cfg t.1 p.schedule, frameByTime cfg t.2 p.schedule) := by
  unfold seriesFrames
  rw [if_neg (by tauto)]

theorem exact_filter {rd : GapReader} {cfg : PyParams} {t : ℝ × ℝ} {w : ℤ × ℤ × ℤ × ℤ} {specie : List Char} (h1 : cfg.step_interval ≠ 0) :
    ∀ (ps : List PyProbe) (st : FrameData × List ℝ), (∀ p ∈ ps, p.schedule ≠ 0) →
      meanExact rd cfg t w specie ps st = meanExact rd cfg t w specie (ps.filter fun p => decide (p.MeanExact specie w)) st
  | [], _, _ => rfl
  | p :: ps, st, h => by
    have ih := fun st => exact_filter (rd := rd) (t := t) (w := w) (specie := specie) h1 ps st fun q hq => h q (by simp [hq])
    by_cases hp : p.MeanExact specie w
    · rw [List.filter_cons_of_pos (by simpa using hp), meanExact, meanExact]
      simp only [if_pos hp, ih]
    · rw [List.filter_cons_of_neg (by simpa using hp), meanExact, frames_ok h1 (h p (by simp)), Option.bind_some, if_neg hp, ih]

theorem bigger_filter {rd : GapReader} {cfg : PyParams} {t : ℝ × ℝ} {w : ℤ × ℤ × ℤ × ℤ} {specie : List Char} (h1 : cfg.step_interval ≠ 0) :
    ∀ (ps : List PyProbe) (st : FrameData × List ℝ), (∀ p ∈ ps, p.schedule ≠ 0) →
      meanBigger rd cfg t w specie ps st = meanBigger rd cfg t w specie (ps.filter fun p => decide (p.MeanBigger specie w)) st
  | [], _, _ => rfl
  | p :: ps, st, h => by
    have ih := fun st => bigger_filter (rd := rd) (t := t) (w := w) (specie := specie) h1 ps st fun q hq => h q (by simp [hq])
    by_cases hp : p.MeanBigger specie w
    · rw [List.filter_cons_of_pos (by simpa using hp), meanBigger, meanBigger]
      simp only [if_pos hp, ih]
    · rw [List.filter_cons_of_neg (by simpa using hp), meanBigger, frames_ok h1 (h p (by simp)), Option.bind_some, if_neg hp, ih]

theorem mem_filter_mean {P : PyProbe → Prop} [DecidablePred P] {ps l : List PyProbe} {p : PyProbe} (h : ps.filter (fun p => decide (P p)) = l) (hp : p ∈ l) :
    p ∈ ps ∧ P p := by
  rw [← h, List.mem_filter] at hp
  exact ⟨hp.1, by simpa using hp.2⟩

/-- the data from one probe of exactly the window -/
theorem data_exact {rd : GapReader} {cfg : PyParams} {t : ℝ × ℝ} {w : ℤ × ℤ × ℤ × ℤ} {specie : List Char} {autoselect : Bool} {p : PyProbe}
    {D : List Char → ℤ → ℤ → ℤ → Option ℝ} (h1 : cfg.step_interval ≠ 0) (h2 : ∀ p ∈ cfg.probes, p.schedule ≠ 0)
    (one : cfg.probes.filter (fun p => decide (p.MeanExact specie w)) = [p])
    (hab : frameByTime cfg t.1 p.schedule < frameByTime cfg t.2 p.schedule)
    (hR : ReadsGaps rd D p (frameByTime cfg t.1 p.schedule) (frameByTime cfg t.2 p.schedule)) :
    meanData rd cfg t w specie autoselect =
      some ((intRange (frameByTime cfg t.1 p.schedule) (frameByTime cfg t.2 p.schedule)).map fun n => meanOver (D (temperatureOf specie) n) w) := by
  obtain ⟨m1, m2⟩ := mem_filter_mean one (p := p) (by simp)
  unfold meanData
  rw [exact_filter h1 _ _ h2, one, meanExact, frames_ok h1 (h2 p m1), Option.bind_some, if_pos m2]
  dsimp only
  have hR' : rd (meanName p) w (frameByTime cfg t.1 p.schedule) (frameByTime cfg t.2 p.schedule) =
      some ((intRange (frameByTime cfg t.1 p.schedule) (frameByTime cfg t.2 p.schedule)).map fun n => (intRange w.1 w.2.2.1).map fun i =>
        (intRange w.2.1 w.2.2.2).map fun k => D (meanName p) n i k) := by
    have := m2.2.2.1
    subst this
    exact hR
  rw [hR', Option.bind_some, meanExact, Option.bind_some]
  dsimp only
  rw [if_neg (by
    rintro ⟨e, -⟩
    simp only [List.nil_append, List.length_map, intRange_length] at e
    omega), List.nil_append, List.map_map]
  congr 1
  apply List.map_congr_left
  intro n _
  rw [Function.comp, mean_window]
  unfold meanName temperatureOf
  rw [m2.2.1]

theorem no_exact {rd : GapReader} {cfg : PyParams} {t : ℝ × ℝ} {w : ℤ × ℤ × ℤ × ℤ} {specie : List Char} (h1 : cfg.step_interval ≠ 0)
    (h2 : ∀ p ∈ cfg.probes, p.schedule ≠ 0) (none : cfg.probes.filter (fun p => decide (p.MeanExact specie w)) = []) :
    meanData rd cfg t w specie true = (meanBigger rd cfg t w specie (cfg.probes.filter fun p => decide (p.MeanBigger specie w)) (.list [], [])).map Prod.snd := by
  unfold meanData
  rw [exact_filter h1 _ _ h2, none, meanExact, Option.bind_some, if_pos ⟨rfl, rfl⟩, bigger_filter h1 _ _ h2]

theorem means_cropped (D : List Char → ℤ → ℤ → ℤ → Option ℝ) (w : ℤ × ℤ × ℤ × ℤ) {p : PyProbe} {specie : List Char} (h : p.specie = specie) (l : List ℤ) :
    (l.map (cropped D w p)).map frameMean = l.map fun n => meanOver (D (temperatureOf specie) n) (shifted w p) := by
  rw [List.map_map]
  apply List.map_congr_left
  intro n _
  unfold cropped
  rw [Function.comp, mean_window]
  unfold meanName temperatureOf
  rw [h]

/-- the data from one bigger window -/
theorem data_bigger {rd : GapReader} {cfg : PyParams} {t : ℝ × ℝ} {w : ℤ × ℤ × ℤ × ℤ} {specie : List Char} {p : PyProbe}
    {D : List Char → ℤ → ℤ → ℤ → Option ℝ} (h1 : cfg.step_interval ≠ 0) (hf : 0 < cfg.frames_per_file) (h2 : ∀ p ∈ cfg.probes, p.schedule ≠ 0)
    (hw : Positive w) (none : cfg.probes.filter (fun p => decide (p.MeanExact specie w)) = [])
    (one : cfg.probes.filter (fun p => decide (p.MeanBigger specie w)) = [p])
    (hab : frameByTime cfg t.1 p.schedule ≤ frameByTime cfg t.2 p.schedule)
    (hR : GapPieces rd D p cfg.frames_per_file (frameByTime cfg t.1 p.schedule) (pieceEnd (frameByTime cfg t.1 p.schedule) (frameByTime cfg t.2 p.schedule) cfg.frames_per_file)) :
    meanData rd cfg t w specie true =
      some ((intRange (frameByTime cfg t.1 p.schedule) (pieceEnd (frameByTime cfg t.1 p.schedule) (frameByTime cfg t.2 p.schedule) cfg.frames_per_file)).map fun n =>
        meanOver (D (temperatureOf specie) n) (shifted w p)) := by
  obtain ⟨m1, m2⟩ := mem_filter_mean one (p := p) (by simp)
  obtain ⟨pieces, q1, q2⟩ := Option.bind_eq_some_iff.1 (window_list (p := p) hw hf hab hR)
  rw [no_exact h1 h2 none, one, meanBigger, frames_ok h1 (h2 p m1), Option.bind_some, if_pos m2]
  dsimp only
  rw [q1, Option.bind_some, q2, Option.bind_some, meanBigger, Option.map_some]
  dsimp only [FrameData.frames]
  rw [List.nil_append, means_cropped D w m2.2.1]

/-- the curve is that of the notebooks of a point -/
theorem curve_series {rd : GapReader} {cfg : PyParams} {t : ℝ × ℝ} {w : ℤ × ℤ × ℤ × ℤ} {specie : List Char} {autoselect : Bool} {l : List ℝ}
    (h : meanData rd cfg t w specie autoselect = some l) (hl : l ≠ []) : meanCurve rd cfg t w specie autoselect = seriesCurve t (fun _ => .list l) [] [] := by
  unfold meanCurve seriesCurve
  rw [h, Option.bind_some]
  obtain ⟨ts, q1, q2, -⟩ := linspace_get (a := t.1) (b := t.2) (n := l.length) (List.length_pos_iff.2 hl)
  show Option.map _ (linspace t.1 t.2 l.length) = (linspace t.1 t.2 l.length).bind _
  rw [q1, Option.bind_some, Option.map_some]
  exact (if_pos q2).symm

theorem gaps_less {rd : GapReader} {D : List Char → ℤ → ℤ → ℤ → Option ℝ} {p : PyProbe} {fpf lo hi hi' : ℤ} (h : GapPieces rd D p fpf lo hi) (hh : hi' ≤ hi) :
    GapPieces rd D p fpf lo hi' :=
  fun j hj => h j (hj.trans hh)

/-- a reader of all data, for examples -/
def gapsReader (D : List Char → ℤ → ℤ → ℤ → Option ℝ) : GapReader := fun c w a b =>
  some ((intRange a b).map fun n => (intRange w.1 w.2.2.1).map fun i => (intRange w.2.1 w.2.2.2).map fun k => D c n i k)

theorem gapsReader_reads (D : List Char → ℤ → ℤ → ℤ → Option ℝ) (p : PyProbe) (a b : ℤ) : ReadsGaps (gapsReader D) D p a b := rfl

theorem gapsReader_pieces (D : List Char → ℤ → ℤ → ℤ → Option ℝ) (p : PyProbe) (fpf lo hi : ℤ) : GapPieces (gapsReader D) D p fpf lo hi := fun _ _ => rfl

/-- A window of the temperature of the electrons, saved every five steps -/
def electronWindow (r0 z0 r1 z1 : ℤ) : PyProbe := ⟨"frame".toList, "T".toList, 5, r0, z0, r1, z1, "electrons".toList⟩

theorem electron_exact (r0 z0 r1 z1 : ℤ) : (electronWindow r0 z0 r1 z1).MeanExact "electrons".toList (r0, z0, r1, z1) := ⟨rfl, rfl, rfl, rfl⟩

theorem electron_not {r0 z0 r1 z1 : ℤ} {w : ℤ × ℤ × ℤ × ℤ} (h : (r0, z0, r1, z1) ≠ w) : ¬(electronWindow r0 z0 r1 z1).MeanExact "electrons".toList w := fun e => h e.2.2.1

theorem electron_bigger {r0 z0 r1 z1 : ℤ} {w : ℤ × ℤ × ℤ × ℤ} (h : r0 ≤ w.1 ∧ z0 ≤ w.2.1 ∧ w.2.2.1 ≤ r1 ∧ w.2.2.2 ≤ z1) :
    (electronWindow r0 z0 r1 z1).MeanBigger "electrons".toList w := ⟨rfl, rfl, h, rfl⟩

theorem filter_one {P : PyProbe → Prop} [DecidablePred P] {p : PyProbe} (h : P p) : [p].filter (fun p => decide (P p)) = [p] := by simp [h]

theorem filter_none {P : PyProbe → Prop} [DecidablePred P] {p : PyProbe} (h : ¬P p) : [p].filter (fun p => decide (P p)) = [] := by simp [h]

theorem filter_both {P : PyProbe → Prop} [DecidablePred P] {p q : PyProbe} (h : P p) (h' : P q) : [p, q].filter (fun p => decide (P p)) = [p, q] := by simp [h, h']

theorem filter_neither {P : PyProbe → Prop} [DecidablePred P] {p q : PyProbe} (h : ¬P p) (h' : ¬P q) : [p, q].filter (fun p => decide (P p)) = [] := by simp [h, h']

end WindowMean

open TimeSeries WindowMean

/-- **C120**, windows saved as asked: if exactly one probe saves the temperature of the species in exactly the window, the curve has a point for every frame of the asked times,
in order, with the mean over the cells of the window that have a temperature, and within one and a half intervals between two frames of the time it was dumped.

The full statement has the times of the dumps (violated, `C120_time_violated`), and holds for every list of probes that save the window (violated, see below). -/
theorem C120_exact_partial (rd : GapReader) (cfg : PyParams) (t : ℝ × ℝ) (w : ℤ × ℤ × ℤ × ℤ) (specie : List Char) (autoselect : Bool) (p : PyProbe)
    (D : List Char → ℤ → ℤ → ℤ → Option ℝ) (step : 0 < cfg.step_interval) (nonzero : ∀ p ∈ cfg.probes, p.schedule ≠ 0) (positive : 0 < p.schedule)
    (one : cfg.probes.filter (fun p => decide (p.MeanExact specie w)) = [p])
    (order : frameByTime cfg t.1 p.schedule < frameByTime cfg t.2 p.schedule)
    (reader : ReadsGaps rd D p (frameByTime cfg t.1 p.schedule) (frameByTime cfg t.2 p.schedule)) :
    ∃ curve, meanCurve rd cfg t w specie autoselect = some curve ∧
      ShowsSeries cfg t p.schedule (fun n => meanOver (D (temperatureOf specie) n) w) curve := by
  have d := data_exact (autoselect := autoselect) step.ne' nonzero one order reader
  have len : ((intRange (frameByTime cfg t.1 p.schedule) (frameByTime cfg t.2 p.schedule)).map fun n => meanOver (D (temperatureOf specie) n) w).length =
      (frameByTime cfg t.2 p.schedule - frameByTime cfg t.1 p.schedule).toNat := by rw [List.length_map, intRange_length]
  rw [curve_series d (by intro e; rw [e] at len; simp at len; omega)]
  exact curve_shows step positive order len rfl

/-- A window of two by three cells in twenty frames -/
example (D : List Char → ℤ → ℤ → ℤ → Option ℝ) : ∃ curve,
    meanCurve (gapsReader D) (seriesCfg 7 [electronWindow 3 4 5 7]) (0, 100) (3, 4, 5, 7) "electrons".toList true = some curve ∧
      ShowsSeries (seriesCfg 7 [electronWindow 3 4 5 7]) (0, 100) 5 (fun n => meanOver (D "T/electrons".toList n) (3, 4, 5, 7)) curve :=
  C120_exact_partial _ _ _ _ _ _ (electronWindow 3 4 5 7) D (by norm_num [seriesCfg]) (by simp [seriesCfg, electronWindow]) (by norm_num [electronWindow])
    (filter_one (electron_exact 3 4 5 7)) (by show frameByTime _ _ 5 < frameByTime _ _ 5; rw [seriesCfg_from, seriesCfg_to]; norm_num) (gapsReader_reads D _ _ _)

/-- The mean of the cells that have a temperature: 2 and 4, one without -/
example : meanOver (fun i k => if i = 0 then (if k = 0 then some 2 else some 4) else none) (0, 0, 2, 2) = 3 := by
  have e : (Finset.Ico (0 : ℤ) 2 ×ˢ Finset.Ico (0 : ℤ) 2).filter (fun x : ℤ × ℤ => ((if x.1 = 0 then (if x.2 = 0 then some (2 : ℝ) else some 4) else none) : Option ℝ).isSome = true) =
      {(0, 0), (0, 1)} := by
    ext ⟨i, k⟩
    simp only [Finset.mem_filter, Finset.mem_product, Finset.mem_Ico, Finset.mem_insert, Finset.mem_singleton, Prod.mk.injEq]
    constructor
    · rintro ⟨h, h'⟩
      by_cases hi : i = 0
      · omega
      · rw [if_neg hi] at h'; simp at h'
    · rintro (⟨rfl, rfl⟩ | ⟨rfl, rfl⟩) <;> simp
  unfold meanOver
  dsimp only
  rw [e, Finset.sum_pair (by simp), Finset.card_pair (by simp)]
  norm_num

/-- **C120**, bigger windows: the temperature of the species was saved in one bigger window, from the corner of the grid on, and the range of times is a whole number of files.
Then the curve is that of the asked window. -/
theorem C120_bigger_partial (rd : GapReader) (cfg : PyParams) (t : ℝ × ℝ) (w : ℤ × ℤ × ℤ × ℤ) (specie : List Char) (p : PyProbe)
    (D : List Char → ℤ → ℤ → ℤ → Option ℝ) (step : 0 < cfg.step_interval) (files : 0 < cfg.frames_per_file) (nonzero : ∀ p ∈ cfg.probes, p.schedule ≠ 0)
    (positive : 0 < p.schedule) (window : 0 ≤ w.1 ∧ 0 ≤ w.2.1 ∧ 0 ≤ w.2.2.1 ∧ 0 ≤ w.2.2.2)
    (none : cfg.probes.filter (fun p => decide (p.MeanExact specie w)) = []) (one : cfg.probes.filter (fun p => decide (p.MeanBigger specie w)) = [p])
    (corner : p.r_start = 0 ∧ p.z_start = 0)
    (order : frameByTime cfg t.1 p.schedule < frameByTime cfg t.2 p.schedule)
    (whole : cfg.frames_per_file ∣ frameByTime cfg t.2 p.schedule - frameByTime cfg t.1 p.schedule)
    (reader : GapPieces rd D p cfg.frames_per_file (frameByTime cfg t.1 p.schedule) (frameByTime cfg t.2 p.schedule)) :
    ∃ curve, meanCurve rd cfg t w specie true = some curve ∧
      ShowsSeries cfg t p.schedule (fun n => meanOver (D (temperatureOf specie) n) w) curve := by
  have pe := pieceEnd_eq files whole
  have d := data_bigger step.ne' files nonzero window none one order.le (by rw [pe]; exact reader)
  obtain ⟨-, -, -, b1, -⟩ := mem_filter_mean one (p := p) (by simp)
  have sh : shifted w p = w := by
    unfold PyProbe.Contains at b1
    unfold shifted
    rw [corner.1, corner.2, zero_add, zero_add, zero_add, zero_add, min_eq_left (by tauto), min_eq_left (by tauto)]
  rw [pe, sh] at d
  have len : ((intRange (frameByTime cfg t.1 p.schedule) (frameByTime cfg t.2 p.schedule)).map fun n => meanOver (D (temperatureOf specie) n) w).length =
      (frameByTime cfg t.2 p.schedule - frameByTime cfg t.1 p.schedule).toNat := by rw [List.length_map, intRange_length]
  rw [curve_series d (by intro e; rw [e] at len; simp at len; omega)]
  exact curve_shows step positive order len rfl

/-- The same window, saved with the whole grid -/
example (D : List Char → ℤ → ℤ → ℤ → Option ℝ) : ∃ curve,
    meanCurve (gapsReader D) (seriesCfg 10 [electronWindow 0 0 10 10]) (0, 100) (3, 4, 5, 7) "electrons".toList true = some curve ∧
      ShowsSeries (seriesCfg 10 [electronWindow 0 0 10 10]) (0, 100) 5 (fun n => meanOver (D "T/electrons".toList n) (3, 4, 5, 7)) curve :=
  C120_bigger_partial _ _ _ _ _ (electronWindow 0 0 10 10) D (by norm_num [seriesCfg]) (by norm_num [seriesCfg]) (by simp [seriesCfg, electronWindow])
    (by norm_num [electronWindow]) (by norm_num) (filter_none (electron_not (by decide))) (filter_one (electron_bigger (by norm_num))) ⟨rfl, rfl⟩
    (by show frameByTime _ _ 5 < frameByTime _ _ 5; rw [seriesCfg_from, seriesCfg_to]; norm_num)
    (by show _ ∣ frameByTime _ _ 5 - frameByTime _ _ 5; rw [seriesCfg_from, seriesCfg_to]; norm_num [seriesCfg]) (gapsReader_pieces D _ _ _ _)

/-- **C120 is violated by the times**: with a range of times from one dump to another, the last frame is drawn one interval later than it was dumped. -/
theorem C120_time_violated (rd : GapReader) (cfg : PyParams) (t : ℝ × ℝ) (w : ℤ × ℤ × ℤ × ℤ) (specie : List Char) (autoselect : Bool) (p : PyProbe)
    (D : List Char → ℤ → ℤ → ℤ → Option ℝ) (step : 0 < cfg.step_interval) (nonzero : ∀ p ∈ cfg.probes, p.schedule ≠ 0)
    (one : cfg.probes.filter (fun p => decide (p.MeanExact specie w)) = [p])
    (order : frameByTime cfg t.1 p.schedule + 1 < frameByTime cfg t.2 p.schedule)
    (exact : t.2 = timeByFrame cfg (frameByTime cfg t.2 p.schedule) p.schedule)
    (reader : ReadsGaps rd D p (frameByTime cfg t.1 p.schedule) (frameByTime cfg t.2 p.schedule)) :
    ∃ curve, meanCurve rd cfg t w specie autoselect = some curve ∧
      curve.getLast? = some (timeByFrame cfg (frameByTime cfg t.2 p.schedule - 1) p.schedule + cfg.step_interval * p.schedule,
        meanOver (D (temperatureOf specie) (frameByTime cfg t.2 p.schedule - 1)) w) := by
  have d := data_exact (autoselect := autoselect) step.ne' nonzero one (by omega) reader
  have len : ((intRange (frameByTime cfg t.1 p.schedule) (frameByTime cfg t.2 p.schedule)).map fun n => meanOver (D (temperatureOf specie) n) w).length =
      (frameByTime cfg t.2 p.schedule - frameByTime cfg t.1 p.schedule).toNat := by rw [List.length_map, intRange_length]
  rw [curve_series d (by intro e; rw [e] at len; simp at len; omega)]
  obtain ⟨curve, c1, -, c3⟩ := curve_last (t := t) (st := fun _ => .list ((intRange (frameByTime cfg t.1 p.schedule) (frameByTime cfg t.2 p.schedule)).map fun n =>
    meanOver (D (temperatureOf specie) n) w)) (first := []) (c := []) (v := fun n => meanOver (D (temperatureOf specie) n) w) order len rfl
  refine ⟨curve, c1, c3.trans ?_⟩
  congr 2
  refine exact.trans ?_
  unfold timeByFrame
  push_cast
  ring

/-- The frame 19 of the time 95 is drawn at 100. -/
example (D : List Char → ℤ → ℤ → ℤ → Option ℝ) : ∃ curve,
    meanCurve (gapsReader D) (seriesCfg 7 [electronWindow 3 4 5 7]) (0, 100) (3, 4, 5, 7) "electrons".toList true = some curve ∧
      curve.getLast? = some (100, meanOver (D "T/electrons".toList 19) (3, 4, 5, 7)) := by
  obtain ⟨curve, h1, h2⟩ := C120_time_violated (gapsReader D) (seriesCfg 7 [electronWindow 3 4 5 7]) (0, 100) (3, 4, 5, 7) "electrons".toList true
    (electronWindow 3 4 5 7) D (by norm_num [seriesCfg]) (by simp [seriesCfg, electronWindow])
    (filter_one (electron_exact 3 4 5 7)) (by show frameByTime _ _ 5 + 1 < frameByTime _ _ 5; rw [seriesCfg_from, seriesCfg_to]; norm_num)
    (by show _ = timeByFrame _ (frameByTime _ _ 5) 5; rw [seriesCfg_to]; norm_num [timeByFrame, seriesCfg]) (gapsReader_reads D _ _ _)
  refine ⟨curve, h1, h2.trans ?_⟩
  show some (timeByFrame _ (frameByTime _ _ 5 - 1) 5 + _ * ((5 : ℤ) : ℝ), meanOver (D _ (frameByTime _ _ 5 - 1)) _) = _
  rw [seriesCfg_to]
  norm_num [timeByFrame, seriesCfg, temperatureOf]
  rfl

/-- **C120 is violated by bigger windows that do not begin at the corner of the grid**: the mean is that of a window further away from the corner, as far as the saved window reaches;
if the saved window does not reach that far, the temperature is shown as zero, whatever it was. -/
theorem C120_corner_violated (rd : GapReader) (cfg : PyParams) (t : ℝ × ℝ) (w : ℤ × ℤ × ℤ × ℤ) (specie : List Char) (p : PyProbe)
    (D : List Char → ℤ → ℤ → ℤ → Option ℝ) (step : 0 < cfg.step_interval) (files : 0 < cfg.frames_per_file) (nonzero : ∀ p ∈ cfg.probes, p.schedule ≠ 0)
    (positive : 0 < p.schedule) (window : 0 ≤ w.1 ∧ 0 ≤ w.2.1 ∧ 0 ≤ w.2.2.1 ∧ 0 ≤ w.2.2.2)
    (none : cfg.probes.filter (fun p => decide (p.MeanExact specie w)) = []) (one : cfg.probes.filter (fun p => decide (p.MeanBigger specie w)) = [p])
    (order : frameByTime cfg t.1 p.schedule < frameByTime cfg t.2 p.schedule)
    (whole : cfg.frames_per_file ∣ frameByTime cfg t.2 p.schedule - frameByTime cfg t.1 p.schedule)
    (reader : GapPieces rd D p cfg.frames_per_file (frameByTime cfg t.1 p.schedule) (frameByTime cfg t.2 p.schedule)) :
    ∃ curve, meanCurve rd cfg t w specie true = some curve ∧
      ShowsSeries cfg t p.schedule (fun n => meanOver (D (temperatureOf specie) n)
        (p.r_start + w.1, p.z_start + w.2.1, min (p.r_start + w.2.2.1) p.r_end, min (p.z_start + w.2.2.2) p.z_end)) curve ∧
      (p.r_end ≤ p.r_start + w.1 ∨ p.z_end ≤ p.z_start + w.2.1 → ∀ x ∈ curve, x.2 = 0) := by
  have pe := pieceEnd_eq files whole
  have d := data_bigger step.ne' files nonzero window none one order.le (by rw [pe]; exact reader)
  rw [pe] at d
  have len : ((intRange (frameByTime cfg t.1 p.schedule) (frameByTime cfg t.2 p.schedule)).map fun n =>
      meanOver (D (temperatureOf specie) n) (shifted w p)).length =
      (frameByTime cfg t.2 p.schedule - frameByTime cfg t.1 p.schedule).toNat := by rw [List.length_map, intRange_length]
  rw [curve_series d (by intro e; rw [e] at len; simp at len; omega)]
  obtain ⟨curve, c1, c2⟩ := curve_shows (t := t) (st := fun _ => .list ((intRange (frameByTime cfg t.1 p.schedule) (frameByTime cfg t.2 p.schedule)).map fun n =>
    meanOver (D (temperatureOf specie) n) (shifted w p))) (first := []) (c := []) (v := fun n => meanOver (D (temperatureOf specie) n) (shifted w p)) step positive order len rfl
  refine ⟨curve, c1, c2, ?_⟩
  intro out x hx
  obtain ⟨k, hk⟩ := List.getElem?_of_mem hx
  rw [(c2.2 k x.1 x.2 hk).1]
  unfold meanOver shifted
  have : Finset.Ico (p.r_start + w.1) (min (p.r_start + w.2.2.1) p.r_end) ×ˢ Finset.Ico (p.z_start + w.2.1) (min (p.z_start + w.2.2.2) p.z_end) = ∅ := by
    rcases out with h | h
    · rw [Finset.Ico_eq_empty_of_le (by omega), Finset.empty_product]
    · rw [Finset.Ico_eq_empty_of_le (a := p.z_start + w.2.1) (by omega), Finset.product_empty]
  dsimp only
  rw [this]
  simp

/-- A window from the row 6 on: the rows 7 and 8 are shown as a temperature of zero, since the rows 13 and 14 were not saved. -/
example (D : List Char → ℤ → ℤ → ℤ → Option ℝ) : ∃ curve,
    meanCurve (gapsReader D) (seriesCfg 10 [electronWindow 6 0 10 10]) (0, 100) (7, 4, 9, 7) "electrons".toList true = some curve ∧ curve.length = 20 ∧
      ∀ x ∈ curve, x.2 = 0 := by
  obtain ⟨curve, h1, h2, h3⟩ := C120_corner_violated (gapsReader D) (seriesCfg 10 [electronWindow 6 0 10 10]) (0, 100) (7, 4, 9, 7) "electrons".toList
    (electronWindow 6 0 10 10) D (by norm_num [seriesCfg]) (by norm_num [seriesCfg]) (by simp [seriesCfg, electronWindow])
    (by norm_num [electronWindow]) (by norm_num) (filter_none (electron_not (by decide))) (filter_one (electron_bigger (by norm_num)))
    (by show frameByTime _ _ 5 < frameByTime _ _ 5; rw [seriesCfg_from, seriesCfg_to]; norm_num)
    (by show _ ∣ frameByTime _ _ 5 - frameByTime _ _ 5; rw [seriesCfg_from, seriesCfg_to]; norm_num [seriesCfg]) (gapsReader_pieces D _ _ _ _)
  have := h2.1
  rw [show (electronWindow 6 0 10 10).schedule = 5 from rfl, seriesCfg_from, seriesCfg_to] at this
  exact ⟨curve, h1, by omega, h3 (by norm_num [electronWindow])⟩

/-- **C120 is violated if the range of times is not a whole number of files**: a bigger window is read to the end of the last piece, so that the curve has more points than frames in
the asked times. -/
theorem C120_piece_violated (rd : GapReader) (cfg : PyParams) (t : ℝ × ℝ) (w : ℤ × ℤ × ℤ × ℤ) (specie : List Char) (p : PyProbe) (hi : ℤ)
    (D : List Char → ℤ → ℤ → ℤ → Option ℝ) (step : 0 < cfg.step_interval) (files : 0 < cfg.frames_per_file) (nonzero : ∀ p ∈ cfg.probes, p.schedule ≠ 0)
    (window : 0 ≤ w.1 ∧ 0 ≤ w.2.1 ∧ 0 ≤ w.2.2.1 ∧ 0 ≤ w.2.2.2)
    (none : cfg.probes.filter (fun p => decide (p.MeanExact specie w)) = []) (one : cfg.probes.filter (fun p => decide (p.MeanBigger specie w)) = [p])
    (order : frameByTime cfg t.1 p.schedule < frameByTime cfg t.2 p.schedule)
    (rest : ¬cfg.frames_per_file ∣ frameByTime cfg t.2 p.schedule - frameByTime cfg t.1 p.schedule)
    (more : frameByTime cfg t.2 p.schedule + cfg.frames_per_file ≤ hi) (reader : GapPieces rd D p cfg.frames_per_file (frameByTime cfg t.1 p.schedule) hi) :
    ∃ curve, meanCurve rd cfg t w specie true = some curve ∧ frameByTime cfg t.2 p.schedule - frameByTime cfg t.1 p.schedule < curve.length := by
  have g1 := pieceEnd_ge (a := frameByTime cfg t.1 p.schedule) (b := frameByTime cfg t.2 p.schedule) files
  have g2 := pieceEnd_lt (a := frameByTime cfg t.1 p.schedule) (b := frameByTime cfg t.2 p.schedule) files
  have g3 := pieceEnd_dvd (frameByTime cfg t.1 p.schedule) (frameByTime cfg t.2 p.schedule) cfg.frames_per_file
  have g4 : frameByTime cfg t.2 p.schedule ≠ pieceEnd (frameByTime cfg t.1 p.schedule) (frameByTime cfg t.2 p.schedule) cfg.frames_per_file :=
    fun e => rest (by rw [← e] at g3; exact g3)
  have d := data_bigger step.ne' files nonzero window none one order.le (gaps_less reader (by omega))
  generalize pieceEnd (frameByTime cfg t.1 p.schedule) (frameByTime cfg t.2 p.schedule) cfg.frames_per_file = e at *
  have len : ((intRange (frameByTime cfg t.1 p.schedule) e).map fun n => meanOver (D (temperatureOf specie) n) (shifted w p)).length =
      (e - frameByTime cfg t.1 p.schedule).toNat := by rw [List.length_map, intRange_length]
  rw [curve_series d (by intro e; rw [e] at len; simp at len; omega)]
  obtain ⟨curve, c1, c2, -⟩ := curve_get (t := t) (st := fun _ => .list ((intRange (frameByTime cfg t.1 p.schedule) e).map fun n =>
    meanOver (D (temperatureOf specie) n) (shifted w p))) (first := []) (c := []) (v := fun n => meanOver (D (temperatureOf specie) n) (shifted w p))
    (by omega : frameByTime cfg t.1 p.schedule < e) len rfl
  exact ⟨curve, c1, by omega⟩

/-- Files of seven frames for a range of twenty -/
example (D : List Char → ℤ → ℤ → ℤ → Option ℝ) : ∃ curve,
    meanCurve (gapsReader D) (seriesCfg 7 [electronWindow 0 0 10 10]) (0, 100) (3, 4, 5, 7) "electrons".toList true = some curve ∧ 20 < curve.length := by
  obtain ⟨curve, h1, h2⟩ := C120_piece_violated (gapsReader D) (seriesCfg 7 [electronWindow 0 0 10 10]) (0, 100) (3, 4, 5, 7) "electrons".toList
    (electronWindow 0 0 10 10) 40 D (by norm_num [seriesCfg]) (by norm_num [seriesCfg]) (by simp [seriesCfg, electronWindow])
    (by norm_num) (filter_none (electron_not (by decide))) (filter_one (electron_bigger (by norm_num)))
    (by show frameByTime _ _ 5 < frameByTime _ _ 5; rw [seriesCfg_from, seriesCfg_to]; norm_num)
    (by show ¬_ ∣ frameByTime _ _ 5 - frameByTime _ _ 5; rw [seriesCfg_from, seriesCfg_to]; norm_num [seriesCfg])
    (by show frameByTime _ _ 5 + _ ≤ _; rw [seriesCfg_to]; norm_num [seriesCfg]) (gapsReader_pieces D _ _ _ _)
  rw [show (electronWindow 0 0 10 10).schedule = 5 from rfl, seriesCfg_from, seriesCfg_to] at h2
  exact ⟨curve, h1, by omega⟩

/-- **C120 is violated by two bigger windows**: the frames of the second are put among those of the first and all are averaged again, so that there are at least two points for every
frame of the asked times. -/
theorem C120_two_windows_violated (rd : GapReader) (cfg : PyParams) (t : ℝ × ℝ) (w : ℤ × ℤ × ℤ × ℤ) (specie : List Char) (p q : PyProbe)
    (D : List Char → ℤ → ℤ → ℤ → Option ℝ) (step : 0 < cfg.step_interval) (files : 0 < cfg.frames_per_file) (nonzero : ∀ p ∈ cfg.probes, p.schedule ≠ 0)
    (window : 0 ≤ w.1 ∧ 0 ≤ w.2.1 ∧ 0 ≤ w.2.2.1 ∧ 0 ≤ w.2.2.2) (same : q.schedule = p.schedule)
    (none : cfg.probes.filter (fun p => decide (p.MeanExact specie w)) = []) (two : cfg.probes.filter (fun p => decide (p.MeanBigger specie w)) = [p, q])
    (order : frameByTime cfg t.1 p.schedule < frameByTime cfg t.2 p.schedule)
    (whole : cfg.frames_per_file ∣ frameByTime cfg t.2 p.schedule - frameByTime cfg t.1 p.schedule)
    (reader : ∀ x ∈ [p, q], GapPieces rd D x cfg.frames_per_file (frameByTime cfg t.1 p.schedule) (frameByTime cfg t.2 p.schedule)) :
    ∃ curve, meanCurve rd cfg t w specie true = some curve ∧
      2 * (frameByTime cfg t.2 p.schedule - frameByTime cfg t.1 p.schedule) ≤ curve.length := by
  obtain ⟨m1, m2⟩ := mem_filter_mean two (p := p) (by simp)
  obtain ⟨m3, m4⟩ := mem_filter_mean two (p := q) (by simp)
  have pe := pieceEnd_eq files whole
  obtain ⟨pieces, q1, q2⟩ := Option.bind_eq_some_iff.1 (window_list (p := p) window files order.le (by rw [pe]; exact reader p (by simp)))
  rw [pe] at q2
  have pieces_in : ∀ x ∈ pieces, frameByTime cfg t.1 p.schedule ≤ x ∧ ReadsGaps rd D q x (x + cfg.frames_per_file) := by
    unfold pyRangeStep at q1
    rw [if_neg files.ne', if_pos files, Option.some.injEq] at q1
    intro x hx
    rw [← q1, List.mem_map] at hx
    obtain ⟨i, i1, rfl⟩ := hx
    rw [List.mem_range] at i1
    have i2 : 0 ≤ (i : ℤ) * cfg.frames_per_file := by positivity
    have i3 : ((i : ℤ) + 1) * cfg.frames_per_file ≤ ((frameByTime cfg t.2 p.schedule - frameByTime cfg t.1 p.schedule + cfg.frames_per_file - 1) / cfg.frames_per_file) *
        cfg.frames_per_file := mul_le_mul_of_nonneg_right (by omega) files.le
    unfold pieceEnd at pe
    constructor
    · omega
    · exact reader q (by simp) i (by linarith)
  obtain ⟨l', g1, g2⟩ := pieces_grow (p := q) window files pieces
    ((intRange (frameByTime cfg t.1 p.schedule) (frameByTime cfg t.2 p.schedule)).map (cropped D w p)) pieces_in
  have d : meanData rd cfg t w specie true = some (((intRange (frameByTime cfg t.1 p.schedule) (frameByTime cfg t.2 p.schedule)).map (cropped D w p)).map frameMean ++
      l'.map frameMean) := by
    rw [no_exact step.ne' nonzero none, two, meanBigger, frames_ok step.ne' (nonzero p m1), Option.bind_some, if_pos m2]
    dsimp only
    rw [q1, Option.bind_some, q2, Option.bind_some, meanBigger, frames_ok step.ne' (nonzero q m3), Option.bind_some, if_pos m4, same]
    dsimp only
    rw [q1, Option.bind_some, g1, Option.bind_some, meanBigger, Option.map_some]
    rfl
  rw [List.length_map, intRange_length] at g2
  have len : (((intRange (frameByTime cfg t.1 p.schedule) (frameByTime cfg t.2 p.schedule)).map (cropped D w p)).map frameMean ++ l'.map frameMean).length =
      (frameByTime cfg t.2 p.schedule - frameByTime cfg t.1 p.schedule).toNat + l'.length := by
    rw [List.length_append, List.length_map, List.length_map, intRange_length, List.length_map]
  generalize ((intRange (frameByTime cfg t.1 p.schedule) (frameByTime cfg t.2 p.schedule)).map (cropped D w p)).map frameMean ++ l'.map frameMean = data at d len
  obtain ⟨ts, x1, x2, -⟩ := linspace_get (a := t.1) (b := t.2) (n := data.length) (by omega)
  refine ⟨ts.zip data, ?_, ?_⟩
  · unfold meanCurve
    rw [d, Option.bind_some, x1, Option.map_some]
  · rw [List.length_zip, x2, min_self, len]
    push_cast
    omega

/-- The whole grid and a half of it: forty points or more for twenty frames -/
example (D : List Char → ℤ → ℤ → ℤ → Option ℝ) : ∃ curve,
    meanCurve (gapsReader D) (seriesCfg 10 [electronWindow 0 0 10 10, electronWindow 0 0 6 10]) (0, 100) (3, 4, 5, 7) "electrons".toList true = some curve ∧
      40 ≤ curve.length := by
  obtain ⟨curve, h1, h2⟩ := C120_two_windows_violated (gapsReader D) (seriesCfg 10 [electronWindow 0 0 10 10, electronWindow 0 0 6 10]) (0, 100) (3, 4, 5, 7)
    "electrons".toList (electronWindow 0 0 10 10) (electronWindow 0 0 6 10) D (by norm_num [seriesCfg]) (by norm_num [seriesCfg]) (by simp [seriesCfg, electronWindow])
    (by norm_num) rfl
    (filter_neither (electron_not (by decide)) (electron_not (by decide))) (filter_both (electron_bigger (by norm_num)) (electron_bigger (by norm_num)))
    (by show frameByTime _ _ 5 < frameByTime _ _ 5; rw [seriesCfg_from, seriesCfg_to]; norm_num)
    (by show _ ∣ frameByTime _ _ 5 - frameByTime _ _ 5; rw [seriesCfg_from, seriesCfg_to]; norm_num [seriesCfg]) (fun _ _ => gapsReader_pieces D _ _ _ _)
  rw [show (electronWindow 0 0 10 10).schedule = 5 from rfl, seriesCfg_from, seriesCfg_to] at h2
  exact ⟨curve, h1, by omega⟩

end Verif
