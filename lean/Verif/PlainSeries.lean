import Verif.Reader
import Verif.SpaceTimeProps
import Verif.WindowMeanProps
import Verif.ReaderProps

/-!
# The notebooks with the reader of the plain files (C114, C119, C120)

The theorems about the notebooks over time assume that the reader gives what was saved.  Here the model of `PlainReader` is put in: it does so for the calls of the notebooks,
if the range ends in a later file than it begins in and that file is complete, or, for windows, if the range begins with a file.
-/

namespace Verif

/-! ## Model -/

/-- The directories of the probes by data set and place, `__get_path__`, tools/lib/plain_reader.py:65-77.  `get_path` uses the second coordinate of a dot first; a directory is named here by
its row and column. -/
structure PlainDirs where
  dot : List Char → ℤ → ℤ → Dir
  col : List Char → ℤ → Dir
  row : List Char → ℤ → Dir
  frame : List Char → ℤ × ℤ × ℤ × ℤ → Dir

/-- `PlainReader` for the notebooks, without cache: `get_frame_range_dot`, `get_frame_range_col`, `get_frame_range_row`, `get_frame_range`, tools/lib/plain_reader.py:464-616.  `g1`, `g2`
and `g3` are what `np.empty` contains.  Simplification: negative numbers of frames raise. -/
noncomputable def plainSeries (ds : PlainDirs) (fpf nr nz : ℕ) (g1 : ℕ → ℝ) (g2 : ℕ → List ℝ) (g3 : ℕ → List (List ℝ)) : SeriesReader where
  dot c i k a b := if a < 0 ∨ b < 0 then none else getRange (allDotsInDs (ds.dot c i k) fpf k.toNat i.toNat) fpf g1 a.toNat b.toNat
  col c k a b := if a < 0 ∨ b < 0 then none else getRange (allInDs (ds.col c k) fpf nr) fpf g2 a.toNat b.toNat
  row c i a b := if a < 0 ∨ b < 0 then none else getRange (allInDs (ds.row c i) fpf nz) fpf g2 a.toNat b.toNat
  frame c w a b := if a < 0 ∨ b < 0 then none else
    getFrameRange (allFramesInDs (ds.frame c w) fpf (w.2.2.1 - w.1).toNat (w.2.2.2 - w.2.1).toNat) fpf (drange (ds.frame c w) * fpf) g3 a.toNat b.toNat

/-- `get_all_frames_in_ds` as `allFramesInDs`, with values that may not be numbers, tools/lib/plain_reader.py:231-256 -/
noncomputable def gapsInDs (d : ℕ → Option (List (Option ℝ))) (fpds s0 s1 number : ℕ) : Option (List GapFrame) :=
  if Set.ncard {f | d f ≠ none} < number then none
  else ((d number).bind fun data => reshape fpds (s0 * s1) (data.take (s0 * s1 * fpds))).bind fun fs => fs.mapM (reshape s0 s1)

/-- `get_frame_range` with values that may not be numbers, tools/lib/plain_reader.py:464-493 -/
noncomputable def plainGaps (ds : List Char → ℤ × ℤ × ℤ × ℤ → ℕ → Option (List (Option ℝ))) (fpf : ℕ) (g : ℕ → GapFrame) : GapReader := fun c w a b =>
  if a < 0 ∨ b < 0 then none
  else getFrameRange (gapsInDs (ds c w) fpf (w.2.2.1 - w.1).toNat (w.2.2.2 - w.2.1).toNat) fpf (Set.ncard {f | ds c w f ≠ none} * fpf) g a.toNat b.toNat

/-! ## Specification -/

/-- The file `f` of a directory with the `N` records `rec 0`, `rec 1`, ..., `fpf` in a file -/
def filesOf {α : Type} (fpf N : ℕ) (rec : ℕ → List α) (f : ℕ) : Option (List α) :=
  if f * fpf < N then some (((List.range N).drop (f * fpf)).take fpf |>.map rec).flatten else none

/-- The probes `P` have saved `N` frames of `D` each, and no dot is on the axis or at the left wall -/
structure SavedBy (ds : PlainDirs) (D : List Char → ℤ → ℤ → ℤ → ℝ) (P : PyProbe → Prop) (nm : PyProbe → List Char) (fpf nr nz N : ℕ) : Prop where
  dot : ∀ p, P p → p.type = "dot".toList → 0 < p.r_start ∧ 0 < p.z_start ∧
    ds.dot (nm p) p.r_start p.z_start = filesOf fpf N fun n => [D (nm p) n p.r_start p.z_start]
  col : ∀ p, P p → p.type = "col".toList → ds.col (nm p) p.z_start = filesOf fpf N fun n => (intRange 0 nr).map fun i => D (nm p) n i p.z_start
  row : ∀ p, P p → p.type = "row".toList → ds.row (nm p) p.r_start = filesOf fpf N fun n => (intRange 0 nz).map fun k => D (nm p) n p.r_start k
  frame : ∀ p, P p → p.type = "frame".toList → ds.frame (nm p) (p.r_start, p.z_start, p.r_end, p.z_end) =
    filesOf fpf N fun n => ((intRange p.r_start p.r_end).map fun i => (intRange p.z_start p.z_end).map fun k => D (nm p) n i k).flatten

namespace PlainSeries

open TimeSeries

theorem files_range {α : Type} {fpf N f : ℕ} (rec : ℕ → List α) (h : (f + 1) * fpf ≤ N) (hf : 0 < fpf) :
    filesOf fpf N rec f = some ((List.range fpf).map fun k => rec (f * fpf + k)).flatten := by
  rw [Nat.succ_mul] at h
  unfold filesOf
  rw [if_pos (by omega)]
  congr 2
  apply List.ext_getElem?
  intro k
  rw [List.getElem?_map, List.getElem?_take, List.getElem?_drop, List.getElem?_map]
  by_cases hk : k < fpf
  · rw [if_pos hk, List.getElem?_range (by omega), List.getElem?_range hk]; rfl
  · rw [if_neg hk, List.getElem?_eq_none (by simp; omega)]; rfl

theorem files_count {α : Type} {fpf N : ℕ} (rec : ℕ → List α) (hf : 0 < fpf) : Set.ncard {f | filesOf fpf N rec f ≠ none} = (N + fpf - 1) / fpf := by
  have : {f | filesOf fpf N rec f ≠ none} = ((Finset.range ((N + fpf - 1) / fpf) : Finset ℕ) : Set ℕ) := by
    ext f
    unfold filesOf
    simp only [Set.mem_ofPred_eq, Finset.coe_range, Set.mem_Iio]
    rw [Nat.lt_div_iff_mul_lt hf, show N + fpf - 1 - (fpf - 1) = N by omega]
    split_ifs with h <;> simp [h]
  rw [this, Set.ncard_coe_finset, Finset.card_range]

theorem files_enough {fpf N i : ℕ} (hf : 0 < fpf) (h : (i + 1) * fpf ≤ N) : i < (N + fpf - 1) / fpf := by
  rw [Nat.succ_mul] at h
  rw [Nat.lt_div_iff_mul_lt hf]
  omega

theorem files_total {fpf N : ℕ} (hf : 0 < fpf) : N ≤ (N + fpf - 1) / fpf * fpf := by
  have := Nat.lt_div_mul_add hf (a := N + fpf - 1)
  omega

theorem records_read {α : Type} {fpf size i : ℕ} (rec : ℕ → List α) (hs : ∀ n, (rec n).length = size) :
    reshape fpf size ((((List.range fpf).map fun k => rec (i * fpf + k)).flatten).take (size * fpf)) = some ((List.range fpf).map fun k => rec (i * fpf + k)) := by
  have hm : ∀ r ∈ (List.range fpf).map fun k => rec (i * fpf + k), r.length = size := by
    intro r hr
    obtain ⟨k, -, rfl⟩ := List.mem_map.1 hr
    exact hs _
  have hl := flatten_length size _ hm
  rw [List.length_map, List.length_range] at hl
  rw [List.take_of_length_le (by rw [hl, Nat.mul_comm])]
  have := reshape_flatten size _ hm
  rwa [List.length_map, List.length_range] at this

/-- complete files of lines -/
theorem lines_datasets {fpf size N F T : ℕ} {d : Dir} {rec : ℕ → List ℝ} (hf : 0 < fpf) (hd : d = filesOf fpf N rec) (hs : ∀ n, (rec n).length = size)
    (hT : (T + 1) * fpf ≤ N) : Datasets (allInDs d fpf size) fpf rec F T := by
  intro i _ hi
  have h : (i + 1) * fpf ≤ N := (Nat.mul_le_mul_right fpf (by omega)).trans hT
  subst hd
  unfold allInDs drange
  rw [files_count rec hf, if_neg (by have := files_enough hf h; omega), files_range rec h hf, Option.bind_some, records_read rec hs]

/-- complete files of points -/
theorem dots_datasets {fpf c r N F T : ℕ} {d : Dir} {v : ℕ → ℝ} (hf : 0 < fpf) (hd : d = filesOf fpf N fun n => [v n]) (hc : 0 < c) (hr : 0 < r)
    (hT : (T + 1) * fpf ≤ N) : Datasets (allDotsInDs d fpf c r) fpf v F T := by
  intro i _ hi
  have h : (i + 1) * fpf ≤ N := (Nat.mul_le_mul_right fpf (by omega)).trans hT
  subst hd
  have e : ((List.range fpf).map fun k => [v (i * fpf + k)]).flatten = (List.range fpf).map fun k => v (i * fpf + k) := by
    generalize List.range fpf = l
    induction l with
    | nil => rfl
    | cons a l ih => simp [ih]
  unfold allDotsInDs drange
  rw [files_count _ hf, if_neg (by have := files_enough hf h; omega), files_range _ h hf, Option.map_some, e]
  have : fpf ≤ c * r * fpf := Nat.le_mul_of_pos_left _ (Nat.mul_pos hc hr)
  rw [List.take_of_length_le (by simpa using this)]

theorem frames_reshape {α : Type} {s0 s1 : ℕ} (fr : ℕ → List (List α)) (h0 : ∀ n, (fr n).length = s0) (h1 : ∀ n, ∀ r ∈ fr n, r.length = s1) (l : List ℕ) :
    (l.map fun n => (fr n).flatten).mapM (reshape s0 s1) = some (l.map fr) := by
  rw [List.mapM_map]
  refine TimeSeries.mapM_some fr _ l fun n _ => ?_
  have := reshape_flatten s1 (fr n) (h1 n)
  rwa [h0] at this

/-- complete files of windows -/
theorem gaps_datasets {α : Type} {fpf s0 s1 N F T : ℕ} {d : ℕ → Option (List α)} {fr : ℕ → List (List α)} (hf : 0 < fpf)
    (hd : d = filesOf fpf N fun n => (fr n).flatten) (h0 : ∀ n, (fr n).length = s0) (h1 : ∀ n, ∀ r ∈ fr n, r.length = s1) (hT : (T + 1) * fpf ≤ N) :
    Datasets (fun number => if Set.ncard {f | d f ≠ none} < number then none
      else ((d number).bind fun data => reshape fpf (s0 * s1) (data.take (s0 * s1 * fpf))).bind fun fs => fs.mapM (reshape s0 s1)) fpf fr F T := by
  intro i _ hi
  have h : (i + 1) * fpf ≤ N := (Nat.mul_le_mul_right fpf (by omega)).trans hT
  subst hd
  dsimp only
  rw [files_count _ hf, if_neg (by have := files_enough hf h; omega), files_range _ h hf, Option.bind_some, records_read (fun n => (fr n).flatten), Option.bind_some]
  · have := frames_reshape fr h0 h1 ((List.range fpf).map fun k => i * fpf + k)
    rw [List.map_map, List.map_map] at this
    exact this
  · intro n
    rw [flatten_length s1 _ (h1 n), h0]

theorem frames_datasets {fpf s0 s1 N F T : ℕ} {d : Dir} {fr : ℕ → List (List ℝ)} (hf : 0 < fpf)
    (hd : d = filesOf fpf N fun n => (fr n).flatten) (h0 : ∀ n, (fr n).length = s0) (h1 : ∀ n, ∀ r ∈ fr n, r.length = s1) (hT : (T + 1) * fpf ≤ N) :
    Datasets (allFramesInDs d fpf s0 s1) fpf fr F T := by
  intro i hi hi'
  have := gaps_datasets (F := F) hf hd h0 h1 hT i hi hi'
  rw [← this]
  unfold allFramesInDs allInDs drange
  dsimp only
  split_ifs <;> rfl

theorem nat_range {α : Type} (v : ℤ → α) {a b : ℕ} : (List.range (b - a)).map (fun k => v ((a + k : ℕ) : ℤ)) = (intRange a b).map v := by
  unfold intRange
  rw [List.map_map, show ((b : ℤ) - (a : ℤ)).toNat = b - a by omega]
  apply List.map_congr_left
  intro k _
  simp

theorem shape {α : Type} (v : ℤ → ℤ → ℤ → α) (r0 z0 r1 z1 : ℤ) :
    (∀ n : ℕ, ((intRange r0 r1).map fun i => (intRange z0 z1).map fun k => v n i k).length = (r1 - r0).toNat) ∧
      ∀ n : ℕ, ∀ r ∈ (intRange r0 r1).map fun i => (intRange z0 z1).map fun k => v n i k, r.length = (z1 - z0).toNat := by
  constructor
  · intro n
    rw [List.length_map, TimeSeries.intRange_length]
  · intro n r hr
    obtain ⟨i, -, rfl⟩ := List.mem_map.1 hr
    rw [List.length_map, TimeSeries.intRange_length]

/-- a file of a window -/
theorem whole_file {α : Type} {ds : ℕ → Option (List α)} {fpf N a : ℕ} (hf : 0 < fpf) (rec g : ℕ → α) {total : ℕ} (ht : N ≤ total) (ha : fpf ∣ a) {b : ℕ} (hb : fpf ∣ b) (hab : a < b)
    (hN : b < N) (hds : Datasets ds fpf rec (a / fpf) (b / fpf - 1)) :
    getFrameRange ds fpf total g a b = some ((List.range (b - a)).map fun k => rec (a + k)) := by
  refine C34_frame_range_partial ds fpf hf rec g total a b hab (by omega) (Or.inl ⟨Nat.mod_eq_zero_of_dvd hb, ?_, hds⟩)
  exact Nat.le_of_dvd (by omega) (Nat.dvd_sub hb ha)

end PlainSeries

open TimeSeries SpaceTime WindowMean PlainSeries

/-- **C114, C119, the reader of the plain files**: it gives the points, columns and rows of the frames from `lo` to `hi`, whatever was in the memory, if `hi` is in a later file than `lo` and
that file is complete. -/
theorem C114_plain_reader (ds : PlainDirs) (D : List Char → ℤ → ℤ → ℤ → ℝ) (P : PyProbe → Prop) (nm : PyProbe → List Char) (fpf nr nz N : ℕ) (lo hi : ℕ) (g1 : ℕ → ℝ) (g2 : ℕ → List ℝ)
    (g3 : ℕ → List (List ℝ)) (files : 0 < fpf) (saved : SavedBy ds D P nm fpf nr nz N) (later : lo / fpf < hi / fpf) (complete : (hi / fpf + 1) * fpf ≤ N) :
    FaithfulReader (plainSeries ds fpf nr nz g1 g2 g3) D P nm lo hi nr nz := by
  have cast : ¬((lo : ℤ) < 0 ∨ (hi : ℤ) < 0) := by omega
  refine ⟨fun p hp ty => ?_, fun p hp ty => ?_, fun p hp ty => ?_⟩
  · obtain ⟨h1, h2, h3⟩ := saved.dot p hp ty
    unfold plainSeries
    dsimp only
    rw [if_neg cast, Int.toNat_natCast, Int.toNat_natCast,
      C34_range_partial _ fpf files (fun n => D (nm p) n p.r_start p.z_start) g1 lo hi (dots_datasets files h3 (by omega) (by omega) complete) later]
    rw [nat_range fun n => D (nm p) n p.r_start p.z_start]
  · unfold plainSeries
    dsimp only
    rw [if_neg cast, Int.toNat_natCast, Int.toNat_natCast,
      C34_range_partial _ fpf files (fun n => (intRange 0 nr).map fun i => D (nm p) n i p.z_start) g2 lo hi
        (lines_datasets files (saved.col p hp ty) (by intro n; rw [List.length_map, TimeSeries.intRange_length]; simp) complete) later]
    rw [nat_range fun n => (intRange 0 nr).map fun i => D (nm p) n i p.z_start]
  · unfold plainSeries
    dsimp only
    rw [if_neg cast, Int.toNat_natCast, Int.toNat_natCast,
      C34_range_partial _ fpf files (fun n => (intRange 0 nz).map fun k => D (nm p) n p.r_start k) g2 lo hi
        (lines_datasets files (saved.row p hp ty) (by intro n; rw [List.length_map, TimeSeries.intRange_length]; simp) complete) later]
    rw [nat_range fun n => (intRange 0 nz).map fun k => D (nm p) n p.r_start k]

/-- **C114, C119, the reader of the plain files, windows**: it gives the pieces of a window, if the first frame begins a file and a frame after the last piece is saved. -/
theorem C114_plain_pieces (ds : PlainDirs) (D : List Char → ℤ → ℤ → ℤ → ℝ) (P : PyProbe → Prop) (nm : PyProbe → List Char) (fpf nr nz N : ℕ) (lo hi : ℕ) (g1 : ℕ → ℝ) (g2 : ℕ → List ℝ)
    (g3 : ℕ → List (List ℝ)) (files : 0 < fpf) (saved : SavedBy ds D P nm fpf nr nz N) (first : fpf ∣ lo) (last : hi < N) :
    FaithfulPieces (plainSeries ds fpf nr nz g1 g2 g3) D P nm fpf lo hi := by
  intro p hp ty j hj
  have hs := saved.frame p hp ty
  obtain ⟨s0, s1⟩ := shape (fun n i k => D (nm p) n i k) p.r_start p.z_start p.r_end p.z_end
  have e1 : (lo : ℤ) + (j : ℤ) * fpf = ((lo + j * fpf : ℕ) : ℤ) := by push_cast; ring
  have e2 : (lo : ℤ) + (j : ℤ) * fpf + fpf = ((lo + j * fpf + fpf : ℕ) : ℤ) := by push_cast; ring
  have hj' : lo + j * fpf + fpf ≤ hi := by
    have : ((lo + j * fpf + fpf : ℕ) : ℤ) ≤ hi := by push_cast; linarith
    exact_mod_cast this
  have d1 : fpf ∣ lo + j * fpf := Dvd.dvd.add first (Dvd.intro_left j rfl)
  have d2 : fpf ∣ lo + j * fpf + fpf := Dvd.dvd.add d1 (dvd_refl _)
  rw [e2, e1]
  unfold plainSeries
  dsimp only
  rw [if_neg (by omega), Int.toNat_natCast, Int.toNat_natCast,
    whole_file (N := N) files (fun n : ℕ => (intRange p.r_start p.r_end).map fun i => (intRange p.z_start p.z_end).map fun k => D (nm p) n i k) g3 ?_ d1 d2 (by omega) (by omega) ?_]
  · rw [nat_range fun n => (intRange p.r_start p.r_end).map fun i => (intRange p.z_start p.z_end).map fun k => D (nm p) n i k]
  · rw [hs]
    unfold drange
    rw [files_count _ files]
    exact files_total files
  · refine frames_datasets files hs s0 s1 ?_
    rw [Nat.sub_add_cancel (Nat.div_pos (by omega) files), Nat.div_mul_cancel d2]
    omega

/-- **C120, the reader of the plain files**: it gives the frames of a window from `lo` to `hi`, if `hi` begins a file, the range has as many frames as a file, and the frame `hi` is saved. -/
theorem C120_plain_reads (ds : List Char → ℤ × ℤ × ℤ × ℤ → ℕ → Option (List (Option ℝ))) (D : List Char → ℤ → ℤ → ℤ → Option ℝ) (p : PyProbe) (fpf N lo hi : ℕ) (g : ℕ → GapFrame)
    (files : 0 < fpf)
    (saved : ds (temperatureOf p.specie) p.window = filesOf fpf N fun n =>
      ((intRange p.r_start p.r_end).map fun i => (intRange p.z_start p.z_end).map fun k => D (temperatureOf p.specie) n i k).flatten)
    (aligned : fpf ∣ hi) (enough : lo + fpf ≤ hi) (last : hi < N) : ReadsGaps (plainGaps ds fpf g) D p lo hi := by
  obtain ⟨s0, s1⟩ := shape (fun n i k => D (temperatureOf p.specie) n i k) p.r_start p.z_start p.r_end p.z_end
  unfold ReadsGaps plainGaps
  rw [if_neg (by omega), Int.toNat_natCast, Int.toNat_natCast,
    C34_frame_range_partial _ fpf files (fun n : ℕ => (intRange p.r_start p.r_end).map fun i => (intRange p.z_start p.z_end).map fun k => D (temperatureOf p.specie) n i k) g _ lo hi
      (by omega) ?_ (Or.inl ⟨Nat.mod_eq_zero_of_dvd aligned, by omega, ?_⟩)]
  · rw [nat_range fun n => (intRange p.r_start p.r_end).map fun i => (intRange p.z_start p.z_end).map fun k => D (temperatureOf p.specie) n i k]
  · rw [saved, files_count _ files]
    exact lt_of_lt_of_le last (files_total files)
  · refine gaps_datasets (N := N) files saved s0 s1 ?_
    rw [Nat.sub_add_cancel (Nat.div_pos (by omega) files), Nat.div_mul_cancel aligned]
    omega

/-- **C120, the reader of the plain files, pieces**: it gives the pieces of a window, if the first frame begins a file and a frame after the last piece is saved. -/
theorem C120_plain_pieces (ds : List Char → ℤ × ℤ × ℤ × ℤ → ℕ → Option (List (Option ℝ))) (D : List Char → ℤ → ℤ → ℤ → Option ℝ) (p : PyProbe) (fpf N lo hi : ℕ) (g : ℕ → GapFrame)
    (files : 0 < fpf)
    (saved : ds (temperatureOf p.specie) p.window = filesOf fpf N fun n =>
      ((intRange p.r_start p.r_end).map fun i => (intRange p.z_start p.z_end).map fun k => D (temperatureOf p.specie) n i k).flatten)
    (first : fpf ∣ lo) (last : hi < N) : GapPieces (plainGaps ds fpf g) D p fpf lo hi := by
  intro j hj
  have e1 : (lo : ℤ) + (j : ℤ) * fpf = ((lo + j * fpf : ℕ) : ℤ) := by push_cast; ring
  have e2 : (lo : ℤ) + (j : ℤ) * fpf + fpf = ((lo + j * fpf + fpf : ℕ) : ℤ) := by push_cast; ring
  have hj' : lo + j * fpf + fpf ≤ hi := by
    have : ((lo + j * fpf + fpf : ℕ) : ℤ) ≤ hi := by push_cast; linarith
    exact_mod_cast this
  rw [e2, e1]
  exact C120_plain_reads ds D p fpf N _ _ g files saved (Dvd.dvd.add (Dvd.dvd.add first (Dvd.intro_left j rfl)) (dvd_refl _)) (by omega) (by omega)

namespace PlainSeries

/-- directories of everything, for examples -/
def allDirs (D : List Char → ℤ → ℤ → ℤ → ℝ) (fpf nr nz N : ℕ) : PlainDirs where
  dot c i k := filesOf fpf N fun n => [D c n i k]
  col c k := filesOf fpf N fun n => (intRange 0 nr).map fun i => D c n i k
  row c i := filesOf fpf N fun n => (intRange 0 nz).map fun k => D c n i k
  frame c w := filesOf fpf N fun n => ((intRange w.1 w.2.2.1).map fun i => (intRange w.2.1 w.2.2.2).map fun k => D c n i k).flatten

end PlainSeries

/-- The curves of the point `(3, 4)` from plain files of seven frames: four files with the frames 0 to 27, whatever is in the memory -/
example (D : List Char → ℤ → ℤ → ℤ → ℝ) (g1 : ℕ → ℝ) (g2 : ℕ → List ℝ) (g3 : ℕ → List (List ℝ)) :
    ∃ curves, seriesCurves fieldNotebook (plainSeries (allDirs D 7 10 10 28) 7 10 10 g1 g2 g3) (seriesCfg 7 dotPair) (0, 100) 3 4 false = some curves ∧
      curves.length = 2 ∧ ∀ (i : ℕ) (c : List Char) (curve : List (ℝ × ℝ)), fieldNotebook.wanted[i]? = some c → curves[i]? = some curve →
        ShowsSeries (seriesCfg 7 dotPair) (0, 100) 5 (fun n => D c n 3 4) curve :=
  C114_dot_partial fieldNotebook _ _ (0, 100) 3 4 5 10 10 D false (by norm_num [seriesCfg]) (by norm_num) (by rw [seriesCfg_from, seriesCfg_to]; norm_num)
    (by
      rw [seriesCfg_from, seriesCfg_to]
      refine C114_plain_reader _ D _ _ 7 10 10 28 0 20 g1 g2 g3 (by norm_num) ⟨?_, fun _ _ _ => rfl, fun _ _ _ => rfl, fun _ _ _ => rfl⟩ (by norm_num) (by norm_num)
      intro p hp ty
      have : p.r_start = 3 ∧ p.z_start = 4 := by
        have := hp.1
        simp only [seriesCfg, dotPair, List.mem_cons, List.not_mem_nil, or_false] at this
        rcases this with rfl | rfl <;> exact ⟨rfl, rfl⟩
      exact ⟨by omega, by omega, rfl⟩)
    (by simp [seriesCfg, dotPair]) (by simp [seriesCfg, dotPair])
    (by simp [fieldNotebook, seriesCfg, dotPair, SeriesNotebook.IsDot, SeriesNotebook.ofSpecie])

/-- The images of the row 3 from windows in plain files of ten frames: three files with the frames 0 to 20 -/
example (D : List Char → ℤ → ℤ → ℤ → ℝ) (g1 : ℕ → ℝ) (g2 : ℕ → List ℝ) (g3 : ℕ → List (List ℝ)) :
    lineImages fieldRow (plainSeries (allDirs D 10 10 10 21) 10 10 10 g1 g2 g3) (seriesCfg 10 (acrossPair 0)) (0, 100) 3 true =
      some (["E_r".toList, "E_z".toList].map fun c => (intRange 0 20).map fun n => (intRange 0 10).map fun k => D c n 3 k) := by
  have := C119_window_partial fieldRow (plainSeries (allDirs D 10 10 10 21) 10 10 10 g1 g2 g3) (seriesCfg 10 (acrossPair 0)) (0, 100) 3 5 10 D rfl
    (acrossPair_only 10 0 (by norm_num) (by norm_num)) (by rw [seriesCfg_from, seriesCfg_to]; norm_num) (by rw [seriesCfg_from, seriesCfg_to]; norm_num [seriesCfg])
    (by
      rw [seriesCfg_from, seriesCfg_to]
      refine C114_plain_pieces _ D _ _ 10 10 10 21 0 20 g1 g2 g3 (by norm_num) ⟨?_, fun _ _ _ => rfl, fun _ _ _ => rfl, fun _ _ _ => rfl⟩ (by norm_num) (by norm_num)
      intro p hp ty
      have := hp.1
      simp only [seriesCfg, acrossPair, List.mem_cons, List.not_mem_nil, or_false] at this
      rcases this with rfl | rfl <;> exact absurd ty (by decide)) (by norm_num) (by simp [seriesCfg, acrossPair])
  rw [seriesCfg_from, seriesCfg_to] at this
  exact this

/-- The mean of a window from plain files of ten frames -/
example (D : List Char → ℤ → ℤ → ℤ → Option ℝ) (g : ℕ → GapFrame) : ∃ curve,
    meanCurve (plainGaps (fun c w => filesOf 10 21 fun n => ((intRange w.1 w.2.2.1).map fun i => (intRange w.2.1 w.2.2.2).map fun k => D c n i k).flatten) 10 g)
      (seriesCfg 10 [electronWindow 3 4 5 7]) (0, 100) (3, 4, 5, 7) "electrons".toList true = some curve ∧
      ShowsSeries (seriesCfg 10 [electronWindow 3 4 5 7]) (0, 100) 5 (fun n => meanOver (D "T/electrons".toList n) (3, 4, 5, 7)) curve :=
  C120_exact_partial _ _ _ _ _ _ (electronWindow 3 4 5 7) D (by norm_num [seriesCfg]) (by simp [seriesCfg, electronWindow]) (by norm_num [electronWindow])
    (filter_one (electron_exact 3 4 5 7)) (by show frameByTime _ _ 5 < frameByTime _ _ 5; rw [seriesCfg_from, seriesCfg_to]; norm_num)
    (by
      show ReadsGaps _ D _ (frameByTime _ _ 5) (frameByTime _ _ 5)
      rw [seriesCfg_from, seriesCfg_to]
      exact C120_plain_reads _ D _ 10 21 0 20 g (by norm_num) rfl (by norm_num) (by norm_num) (by norm_num))

end Verif
