import Verif.SpaceTime
import Verif.TimeSeriesProps
import Verif.PlotProps

/-!
# Maps of a line over time (C119)
-/

namespace Verif

/-! ## Specification -/

/-- The values along the line in the frame `n`: those of the column, over all `nr` rows, or those of the row, over all `nz` columns -/
def LineNotebook.along (nb : LineNotebook) (D : List Char → ℤ → ℤ → ℤ → ℝ) (c : List Char) (line nr nz n : ℤ) : List ℝ :=
  if nb.radial = true then (intRange 0 nr).map fun i => D c n i line else (intRange 0 nz).map fun k => D c n line k

/-- The line is saved by windows only, by exactly one for every component of the notebook, with the schedule `s` -/
structure OnlyAcross (nb : LineNotebook) (cfg : PyParams) (line s : ℤ) : Prop where
  wanted : nb.wanted ≠ []
  step : cfg.step_interval ≠ 0
  files : 0 < cfg.frames_per_file
  nonzero : ∀ p ∈ cfg.probes, p.schedule ≠ 0
  lines : ∀ p ∈ cfg.probes, ¬nb.OnLine line p
  schedule : ∀ p ∈ cfg.probes, nb.Across cfg line p → p.component ∈ nb.wanted ∨ nb.keep = true → p.schedule = s
  window : ∀ c ∈ nb.wanted, ∃ p ∈ cfg.probes, nb.Across cfg line p ∧ p.component = c
  single : cfg.probes.Pairwise fun p q => nb.Across cfg line p → nb.Across cfg line q → p.component ∈ nb.wanted → p.component ≠ q.component

/-- The probes that a notebook reads: those of its components, saved every `s` steps -/
def LineNotebook.reads (nb : LineNotebook) (cfg : PyParams) (s : ℤ) (p : PyProbe) : Prop :=
  p ∈ cfg.probes ∧ p.schedule = s ∧ p.component ∈ nb.wanted

namespace SpaceTime

open TimeSeries

/-- the range that is kept, if any, is the right one -/
def Kept (nb : LineNotebook) (a b : ℤ) (st : LineState) : Prop :=
  nb.keep = true → (st.start = none ∨ st.start = some a) ∧ (st.stop = none ∨ st.stop = some b)

theorem frame_some {cfg : PyParams} {t : ℝ} {p : PyProbe} (h1 : cfg.step_interval ≠ 0) (h2 : p.schedule ≠ 0) :
    lineFrame cfg t p = some (frameByTime cfg t p.schedule) := by
  unfold lineFrame
  rw [if_neg (by tauto)]

theorem or_kept {old : Option ℤ} {a : ℤ} (h : old = none ∨ old = some a) : pyOrInt old (some a) = some a := by
  rcases h with rfl | rfl
  · rfl
  · unfold pyOrInt
    dsimp only
    split_ifs <;> rfl

theorem frames_some {nb : LineNotebook} {cfg : PyParams} {t : ℝ × ℝ} {p : PyProbe} {st : LineState} {s a b : ℤ} (h1 : cfg.step_interval ≠ 0) (h2 : p.schedule ≠ 0)
    (ha : a = frameByTime cfg t.1 s) (hb : b = frameByTime cfg t.2 s) (hk : Kept nb a b st) (hs : p.schedule = s) : lineFrames nb cfg t p st = some (a, b) := by
  unfold lineFrames
  rw [frame_some h1 h2, frame_some h1 h2, hs, ← ha, ← hb]
  by_cases k : nb.keep = true
  · rw [if_pos k, if_pos k, or_kept (hk k).1, or_kept (hk k).2]; rfl
  · rw [if_neg k, if_neg k]; rfl

theorem frames_any {nb : LineNotebook} {cfg : PyParams} {t : ℝ × ℝ} {p : PyProbe} {st : LineState} (h1 : cfg.step_interval ≠ 0) (h2 : p.schedule ≠ 0)
    (k : ¬nb.keep = true) : lineFrames nb cfg t p st = some (frameByTime cfg t.1 p.schedule, frameByTime cfg t.2 p.schedule) := by
  unfold lineFrames
  rw [frame_some h1 h2, frame_some h1 h2, if_neg k, if_neg k]; rfl

theorem line_read {nb : LineNotebook} {rd : SeriesReader} {D : List Char → ℤ → ℤ → ℤ → ℝ} {a b nr nz line : ℤ} {P : PyProbe → Prop} {p : PyProbe}
    (hR : FaithfulReader rd D P PyProbe.component a b nr nz) (hP : P p) (hl : nb.OnLine line p) :
    (if nb.radial = true then rd.col else rd.row) p.component line a b = some ((intRange a b).map (nb.along D p.component line nr nz)) := by
  unfold LineNotebook.along
  unfold LineNotebook.OnLine at hl
  by_cases h : nb.radial = true
  · rw [if_pos h] at hl
    have := hR.col p hP hl.1
    rw [hl.2] at this
    simp only [if_pos h]; exact this
  · rw [if_neg h] at hl
    have := hR.row p hP hl.1
    rw [hl.2] at this
    simp only [if_neg h]; exact this

theorem probes_miss {nb : LineNotebook} {rd : SeriesReader} {cfg : PyParams} {t : ℝ × ℝ} {line : ℤ} :
    ∀ (ps : List PyProbe) (st : LineState), (∀ p ∈ ps, ¬nb.OnLine line p) → lineProbes nb rd cfg t line ps st = some st
  | [], _, _ => rfl
  | p :: ps, st, h => by rw [lineProbes, if_neg (h p (by simp)), probes_miss ps st fun q hq => h q (by simp [hq])]

theorem probes_data {nb : LineNotebook} {rd : SeriesReader} {cfg : PyParams} {t : ℝ × ℝ} {line s a b nr nz : ℤ} {D : List Char → ℤ → ℤ → ℤ → ℝ} {P : PyProbe → Prop}
    (hst : cfg.step_interval ≠ 0) (ha : a = frameByTime cfg t.1 s) (hb : b = frameByTime cfg t.2 s) (hR : FaithfulReader rd D P PyProbe.component a b nr nz) :
    ∀ (ps : List PyProbe) (st : LineState), Kept nb a b st → (∀ p ∈ ps, p.schedule ≠ 0) → (∀ p ∈ ps, nb.OnLine line p → p.component ∈ nb.wanted → P p) →
      (∀ p ∈ ps, nb.OnLine line p → p.component ∈ nb.wanted ∨ nb.keep = true → p.schedule = s) →
      ∃ st', lineProbes nb rd cfg t line ps st = some st' ∧ ∀ c ∈ nb.wanted,
        (st'.data c = st.data c ∨ st'.data c = .array ((intRange a b).map (nb.along D c line nr nz))) ∧
        ((∃ p ∈ ps, nb.OnLine line p ∧ p.component = c) → st'.data c = .array ((intRange a b).map (nb.along D c line nr nz)))
  | [], st, _, _, _, _ => ⟨st, rfl, fun c _ => ⟨Or.inl rfl, by simp⟩⟩
  | p :: ps, st, hk, h0, hP, hs => by
    have h0' := fun q (hq : q ∈ ps) => h0 q (by simp [hq])
    have hP' := fun q (hq : q ∈ ps) => hP q (by simp [hq])
    have hs' := fun q (hq : q ∈ ps) => hs q (by simp [hq])
    by_cases hp : nb.OnLine line p
    · by_cases hw : p.component ∈ nb.wanted
      · obtain ⟨st', k1, k2⟩ := probes_data (nb := nb) (line := line) hst ha hb hR ps
          ⟨Function.update st.data p.component (.array ((intRange a b).map (nb.along D p.component line nr nz))), some a, some b⟩
          (fun _ => ⟨Or.inr rfl, Or.inr rfl⟩) h0' hP' hs'
        refine ⟨st', ?_, ?_⟩
        · rw [lineProbes, if_pos hp, frames_some hst (h0 p (by simp)) ha hb hk (hs p (by simp) hp (Or.inl hw)), Option.bind_some, if_pos hw]
          dsimp only
          rw [line_read hR (hP p (by simp) hp hw) hp, Option.map_some, Option.bind_some, k1]
        · intro c hc
          obtain ⟨j1, j2⟩ := k2 c hc
          dsimp only at j1
          by_cases e : p.component = c
          · subst e
            have : st'.data p.component = .array ((intRange a b).map (nb.along D p.component line nr nz)) := by
              rcases j1 with j | j
              · rw [j, Function.update_self]
              · exact j
            exact ⟨Or.inr this, fun _ => this⟩
          · rw [Function.update_of_ne (Ne.symm e)] at j1
            refine ⟨j1, ?_⟩
            rintro ⟨q, q1, q2, q3⟩
            rcases List.mem_cons.1 q1 with rfl | q1
            · exact absurd q3 e
            · exact j2 ⟨q, q1, q2, q3⟩
      · obtain ⟨f, hf, hk'⟩ : ∃ f : ℤ × ℤ, lineFrames nb cfg t p st = some f ∧ Kept nb a b ⟨st.data, some f.1, some f.2⟩ := by
          by_cases k : nb.keep = true
          · exact ⟨_, frames_some hst (h0 p (by simp)) ha hb hk (hs p (by simp) hp (Or.inr k)), fun _ => ⟨Or.inr rfl, Or.inr rfl⟩⟩
          · exact ⟨_, frames_any hst (h0 p (by simp)) k, fun k' => absurd k' k⟩
        obtain ⟨st', k1, k2⟩ := probes_data (nb := nb) (line := line) hst ha hb hR ps ⟨st.data, some f.1, some f.2⟩ hk' h0' hP' hs'
        refine ⟨st', ?_, ?_⟩
        · rw [lineProbes, if_pos hp, hf, Option.bind_some, if_neg hw, Option.bind_some, k1]
        · intro c hc
          obtain ⟨j1, j2⟩ := k2 c hc
          refine ⟨j1, ?_⟩
          rintro ⟨q, q1, q2, q3⟩
          rcases List.mem_cons.1 q1 with rfl | q1
          · exact absurd (q3 ▸ hc) hw
          · exact j2 ⟨q, q1, q2, q3⟩
    · obtain ⟨st', k1, k2⟩ := probes_data (nb := nb) (line := line) hst ha hb hR ps st hk h0' hP' hs'
      refine ⟨st', ?_, ?_⟩
      · rw [lineProbes, if_neg hp, k1]
      · intro c hc
        obtain ⟨j1, j2⟩ := k2 c hc
        refine ⟨j1, ?_⟩
        rintro ⟨q, q1, q2, q3⟩
        rcases List.mem_cons.1 q1 with rfl | q1
        · exact absurd q2 hp
        · exact j2 ⟨q, q1, q2, q3⟩

/-- An image of rows of one length is drawn. -/
theorem images_some {nb : LineNotebook} {st : LineState} {V : List Char → List (List ℝ)} (h : ∀ c ∈ nb.wanted, (st.data c).rows = V c ∧ 0 < (V c).length ∧
    ∃ w : ℕ, ∀ r ∈ V c, r.length = w) :
    (nb.wanted.mapM fun c => if (st.data c).rows.length = 0 ∨ ∃ r ∈ (st.data c).rows, r.length ≠ ((st.data c).rows.headD []).length then none else some (st.data c).rows) =
      some (nb.wanted.map V) := by
  apply TimeSeries.mapM_some
  intro c hc
  obtain ⟨h1, h2, w, h3⟩ := h c hc
  rw [h1, if_neg]
  rintro (e | ⟨r, r1, r2⟩)
  · omega
  · apply r2
    rw [h3 r r1]
    cases hV : V c with
    | nil => rw [hV] at h2; simp at h2
    | cons x l => rw [List.headD_cons, h3 x (by rw [hV]; simp)]

theorem along_length {nb : LineNotebook} {D : List Char → ℤ → ℤ → ℤ → ℝ} {c : List Char} {line nr nz n : ℤ} :
    (nb.along D c line nr nz n).length = (if nb.radial = true then nr else nz).toNat := by
  unfold LineNotebook.along
  split_ifs <;> rw [List.length_map, intRange_length, sub_zero]

/-! ## Windows -/

theorem windows_data {nb : LineNotebook} {rd : SeriesReader} {cfg : PyParams} {t : ℝ × ℝ} {line s a b : ℤ} (V : PyProbe → List (List ℝ))
    (hst : cfg.step_interval ≠ 0) (ha : a = frameByTime cfg t.1 s) (hb : b = frameByTime cfg t.2 s) (hf : 0 < cfg.frames_per_file) :
    ∀ (ps : List PyProbe) (st : LineState), Kept nb a b st → (∀ p ∈ ps, p.schedule ≠ 0) →
      (∀ p ∈ ps, nb.Across cfg line p → p.component ∈ nb.wanted ∨ nb.keep = true → p.schedule = s) →
      (∀ p ∈ ps, nb.Across cfg line p → p.component ∈ nb.wanted → st.data p.component = .list [] ∧
        ((pyRangeStep a b cfg.frames_per_file).bind fun pieces => linePieces nb rd cfg.frames_per_file line p a pieces (.list [])) = some (.list (V p))) →
      ps.Pairwise (fun p q => nb.Across cfg line p → nb.Across cfg line q → p.component ∈ nb.wanted → p.component ≠ q.component) →
      ∃ st', lineWindows nb rd cfg t line ps st = some st' ∧
        (∀ p ∈ ps, nb.Across cfg line p → p.component ∈ nb.wanted → st'.data p.component = .list (V p)) ∧
        ∀ c, (∀ p ∈ ps, nb.Across cfg line p → p.component ≠ c) → st'.data c = st.data c
  | [], st, _, _, _, _, _ => ⟨st, rfl, by simp, fun _ _ => rfl⟩
  | p :: ps, st, hk, h0, hs, hw, hp => by
    have h0' := fun q (hq : q ∈ ps) => h0 q (by simp [hq])
    have hs' := fun q (hq : q ∈ ps) => hs q (by simp [hq])
    obtain ⟨hp1, hp2⟩ := List.pairwise_cons.1 hp
    by_cases w : nb.Across cfg line p
    · by_cases c : p.component ∈ nb.wanted
      · obtain ⟨w1, w2⟩ := hw p (by simp) w c
        obtain ⟨st', k1, k2, k3⟩ := windows_data (nb := nb) (line := line) V hst ha hb hf ps
          ⟨Function.update st.data p.component (.list (V p)), some a, some b⟩ (fun _ => ⟨Or.inr rfl, Or.inr rfl⟩) h0' hs'
          (by
            intro q hq qw qc
            obtain ⟨x1, x2⟩ := hw q (by simp [hq]) qw qc
            refine ⟨?_, x2⟩
            show Function.update st.data p.component (.list (V p)) q.component = _
            rw [Function.update_of_ne (Ne.symm (hp1 q hq w qw c)), x1]) hp2
        refine ⟨st', ?_, ?_, ?_⟩
        · obtain ⟨pieces, q1, q2⟩ := Option.bind_eq_some_iff.1 w2
          rw [lineWindows, if_pos w, frames_some hst (h0 p (by simp)) ha hb hk (hs p (by simp) w (Or.inl c)), Option.bind_some, if_pos c, w1]
          dsimp only
          rw [q1, Option.bind_some, q2, Option.map_some, Option.bind_some, k1]
        · intro q hq qw qc
          rcases List.mem_cons.1 hq with rfl | hq
          · rw [k3 _ fun r hr rw' => Ne.symm (hp1 r hr w rw' c)]
            exact Function.update_self ..
          · exact k2 q hq qw qc
        · intro d hd
          rw [k3 d fun r hr => hd r (by simp [hr])]
          exact Function.update_of_ne (Ne.symm (hd p (by simp) w)) ..
      · obtain ⟨f, hf', hk'⟩ : ∃ f : ℤ × ℤ, lineFrames nb cfg t p st = some f ∧ Kept nb a b ⟨st.data, some f.1, some f.2⟩ := by
          by_cases k : nb.keep = true
          · exact ⟨_, frames_some hst (h0 p (by simp)) ha hb hk (hs p (by simp) w (Or.inr k)), fun _ => ⟨Or.inr rfl, Or.inr rfl⟩⟩
          · exact ⟨_, frames_any hst (h0 p (by simp)) k, fun k' => absurd k' k⟩
        obtain ⟨st', k1, k2, k3⟩ := windows_data (nb := nb) (line := line) V hst ha hb hf ps ⟨st.data, some f.1, some f.2⟩ hk' h0' hs'
          (fun q hq => hw q (by simp [hq])) hp2
        refine ⟨st', ?_, ?_, fun d hd => k3 d fun r hr => hd r (by simp [hr])⟩
        · rw [lineWindows, if_pos w, hf', Option.bind_some, if_neg c, if_neg (by omega), Option.bind_some, k1]
        · intro q hq qw qc
          rcases List.mem_cons.1 hq with rfl | hq
          · exact absurd qc c
          · exact k2 q hq qw qc
    · obtain ⟨st', k1, k2, k3⟩ := windows_data (nb := nb) (line := line) V hst ha hb hf ps st hk h0' hs' (fun q hq => hw q (by simp [hq])) hp2
      refine ⟨st', ?_, ?_, fun d hd => k3 d fun r hr => hd r (by simp [hr])⟩
      · rw [lineWindows, if_neg w, k1]
      · intro q hq qw qc
        rcases List.mem_cons.1 hq with rfl | hq
        · exact absurd qw w
        · exact k2 q hq qw qc

theorem windows_all {nb : LineNotebook} {rd : SeriesReader} {cfg : PyParams} {t : ℝ × ℝ} {line s : ℤ} (V : PyProbe → List (List ℝ)) (h : OnlyAcross nb cfg line s)
    (hV : ∀ p ∈ cfg.probes, nb.Across cfg line p → p.component ∈ nb.wanted →
      ((pyRangeStep (frameByTime cfg t.1 s) (frameByTime cfg t.2 s) cfg.frames_per_file).bind fun pieces =>
        linePieces nb rd cfg.frames_per_file line p (frameByTime cfg t.1 s) pieces (.list [])) = some (.list (V p))) :
    ∃ st, lineData nb rd cfg t line true = some st ∧ ∀ c ∈ nb.wanted, ∃ p ∈ cfg.probes, nb.Across cfg line p ∧ p.component = c ∧ (st.data c).rows = V p := by
  obtain ⟨st, k1, k2, -⟩ := windows_data (nb := nb) (line := line) V h.step rfl rfl h.files cfg.probes ⟨fun _ => .list [], none, none⟩
    (fun _ => ⟨Or.inl rfl, Or.inl rfl⟩) h.nonzero h.schedule (fun p hp w c => ⟨rfl, hV p hp w c⟩) h.single
  refine ⟨st, ?_, ?_⟩
  · unfold lineData
    rw [probes_miss _ _ h.lines, Option.bind_some, if_pos, k1]
    obtain ⟨c, hc⟩ := List.exists_mem_of_ne_nil _ h.wanted
    exact ⟨⟨c, hc, rfl⟩, rfl⟩
  · intro c hc
    obtain ⟨p, p1, p2, p3⟩ := h.window c hc
    refine ⟨p, p1, p2, p3, ?_⟩
    have := k2 p p1 p2 (p3 ▸ hc)
    rw [p3] at this
    rw [this]
    rfl

/-- the row of a window that is read -/
def windowRow (D : List Char → ℤ → ℤ → ℤ → ℝ) (line : ℤ) (p : PyProbe) (n : ℤ) : List ℝ := (intRange p.z_start p.z_end).map fun k => D p.component n (p.r_start + line) k

theorem row_pieces {nb : LineNotebook} {rd : SeriesReader} {D : List Char → ℤ → ℤ → ℤ → ℝ} {hi fpf line start : ℤ} {p : PyProbe} (hn : nb.radial = false)
    (hR : PiecesOf rd D p.component p fpf start hi) (hf : 0 < fpf) (h1 : 0 ≤ line) (h2 : line < p.r_end - p.r_start) :
    ∀ n j : ℕ, start + ((j : ℤ) + n) * fpf ≤ hi →
      linePieces nb rd fpf line p start ((List.range' j n).map fun (i : ℕ) => start + i * fpf)
        (.list ((intRange start (start + j * fpf)).map (windowRow D line p))) =
      some (.list ((intRange start (start + (j + n) * fpf)).map (windowRow D line p)))
  | 0, j, _ => by simp [linePieces]
  | n + 1, j, h => by
    push_cast at h
    have nn : 0 ≤ (n : ℤ) * fpf := by positivity
    have jj : 0 ≤ (j : ℤ) * fpf := by positivity
    have e : start + ((j : ℤ) + (n + 1)) * fpf = start + (j : ℤ) * fpf + n * fpf + fpf := by ring
    rw [e] at h
    have len : ((intRange start (start + j * fpf)).map (windowRow D line p)).length = (j * fpf).toNat := by
      rw [List.length_map, intRange_length]; congr 1; ring
    have pk : nb.pick line ((intRange (start + j * fpf) (start + j * fpf + fpf)).map fun n => (intRange p.r_start p.r_end).map fun i =>
        (intRange p.z_start p.z_end).map fun k => D p.component n i k) =
        some ((intRange (start + j * fpf) (start + j * fpf + fpf)).map (windowRow D line p)) := by
      unfold LineNotebook.pick npColumn
      rw [hn, if_neg (by simp), List.mapM_map, TimeSeries.mapM_some (windowRow D line p)]
      intro n _
      exact pyGet_range _ h1 h2
    rw [List.range'_succ, List.map_cons, linePieces, hR j (by rw [add_mul, one_mul]; omega), Option.bind_some, pk, Option.bind_some]
    unfold LineData.assign
    dsimp only
    rw [len, pyIndex_end _ (by omega), pyIndex_end _ (by omega), max_self, ← len, List.take_length, List.drop_length, List.append_nil, ← List.map_append,
      intRange_append (by omega) (by omega), Option.bind_some]
    have := row_pieces (nb := nb) (line := line) hn hR hf h1 h2 n (j + 1) (by push_cast; linarith)
    push_cast at this ⊢
    rw [show start + (j : ℤ) * fpf + fpf = start + (j + 1) * fpf by ring, this, show ((j : ℤ) + 1 + n) = j + (n + 1) by ring]

theorem row_window {nb : LineNotebook} {rd : SeriesReader} {D : List Char → ℤ → ℤ → ℤ → ℝ} {a b fpf line : ℤ} {p : PyProbe} (hn : nb.radial = false)
    (hf : 0 < fpf) (hab : a ≤ b) (hR : PiecesOf rd D p.component p fpf a (pieceEnd a b fpf)) (h1 : 0 ≤ line) (h2 : line < p.r_end - p.r_start) :
    (pyRangeStep a b fpf).bind (fun pieces => linePieces nb rd fpf line p a pieces (.list [])) =
      some (.list ((intRange a (pieceEnd a b fpf)).map (windowRow D line p))) := by
  unfold pyRangeStep
  rw [if_neg hf.ne', if_pos hf, Option.bind_some, List.range_eq_range']
  have q : 0 ≤ (b - a + fpf - 1) / fpf := Int.ediv_nonneg (by omega) hf.le
  have := row_pieces (nb := nb) (line := line) hn hR hf h1 h2 ((b - a + fpf - 1) / fpf).toNat 0 (by
    unfold pieceEnd; rw [Int.toNat_of_nonneg q]; push_cast; rw [zero_add])
  simp only [Nat.cast_zero, zero_mul, add_zero, zero_add, Int.toNat_of_nonneg q] at this
  rw [show intRange a a = [] by simp [intRange], List.map_nil] at this
  exact this

/-- the images of row notebooks from windows that begin in the row `r0` -/
theorem row_images {nb : LineNotebook} {rd : SeriesReader} {cfg : PyParams} {t : ℝ × ℝ} {line s nr r0 : ℤ} {D : List Char → ℤ → ℤ → ℤ → ℝ} (hn : nb.radial = false)
    (h : OnlyAcross nb cfg line s) (hab : frameByTime cfg t.1 s < frameByTime cfg t.2 s)
    (hR : FaithfulPieces rd D (nb.reads cfg s) PyProbe.component cfg.frames_per_file (frameByTime cfg t.1 s)
      (pieceEnd (frameByTime cfg t.1 s) (frameByTime cfg t.2 s) cfg.frames_per_file)) (h1 : 0 ≤ line)
    (h2 : ∀ p ∈ cfg.probes, nb.Across cfg line p → p.component ∈ nb.wanted → p.r_start = r0 ∧ r0 + line < p.r_end) :
    lineImages nb rd cfg t line true = some (nb.wanted.map fun c =>
      (intRange (frameByTime cfg t.1 s) (pieceEnd (frameByTime cfg t.1 s) (frameByTime cfg t.2 s) cfg.frames_per_file)).map (nb.along D c (r0 + line) nr cfg.number_z_grid)) := by
  obtain ⟨st, k1, k2⟩ := windows_all (rd := rd) (t := t)
    (fun p => (intRange (frameByTime cfg t.1 s) (pieceEnd (frameByTime cfg t.1 s) (frameByTime cfg t.2 s) cfg.frames_per_file)).map (windowRow D line p)) h (by
      intro p hp w c
      obtain ⟨x1, x2⟩ := h2 p hp w c
      exact row_window hn h.files hab.le (hR p ⟨hp, h.schedule p hp w (Or.inl c), c⟩ w.1) h1 (by omega))
  unfold lineImages
  rw [k1, Option.bind_some]
  refine images_some fun c hc => ⟨?_, ?_, (if nb.radial = true then nr else cfg.number_z_grid).toNat, ?_⟩
  · obtain ⟨p, p1, p2, p3, p4⟩ := k2 c hc
    rw [p4]
    apply List.map_congr_left
    intro n _
    obtain ⟨x1, -⟩ := h2 p p1 p2 (p3 ▸ hc)
    have w := p2.2
    rw [hn, if_neg (by simp)] at w
    unfold windowRow LineNotebook.along
    rw [hn, if_neg (by simp), p3, x1, w.2.1, w.2.2.2]
  · have := pieceEnd_ge (a := frameByTime cfg t.1 s) (b := frameByTime cfg t.2 s) h.files
    rw [List.length_map, intRange_length]
    omega
  · intro r hr
    obtain ⟨n, -, rfl⟩ := List.mem_map.1 hr
    exact along_length

/-- Probes of the column 4 -/
def columnPair : List PyProbe := [⟨"col".toList, "E_r".toList, 5, 0, 4, 0, 0, []⟩, ⟨"col".toList, "E_z".toList, 5, 0, 4, 0, 0, []⟩]

/-- Windows over all columns, from the row `r0` -/
def acrossPair (r0 : ℤ) : List PyProbe :=
  [⟨"frame".toList, "E_r".toList, 5, r0, 0, 10, 10, []⟩, ⟨"frame".toList, "E_z".toList, 5, r0, 0, 10, 10, []⟩]

theorem acrossPair_only (fpf r0 : ℤ) (hf : 0 < fpf) (h1 : r0 ≤ 3) : OnlyAcross fieldRow (seriesCfg fpf (acrossPair r0)) 3 5 where
  wanted := by simp [fieldRow]
  step := by norm_num [seriesCfg]
  files := hf
  nonzero := by simp [seriesCfg, acrossPair]
  lines := by simp [seriesCfg, acrossPair, LineNotebook.OnLine, fieldRow]
  schedule := by simp [seriesCfg, acrossPair]
  window := by simp [seriesCfg, acrossPair, LineNotebook.Across, fieldRow, h1]
  single := by simp [seriesCfg, acrossPair]

end SpaceTime

open TimeSeries SpaceTime

/-- **C119**, probes of the line: if every component has a probe of the line, all saved with the same schedule `s` (in the notebooks of the magnetic field those of other components on
the line too), then the images have a row for every frame of the asked times, in order, with the values along the line.

The full statement holds for every list of probes that save the line, and has scales of the axes that read places and times (both violated, see below). -/
theorem C119_line_partial (nb : LineNotebook) (rd : SeriesReader) (cfg : PyParams) (t : ℝ × ℝ) (line s nr nz : ℤ) (D : List Char → ℤ → ℤ → ℤ → ℝ) (autoselect : Bool)
    (step : cfg.step_interval ≠ 0) (order : frameByTime cfg t.1 s < frameByTime cfg t.2 s)
    (reader : FaithfulReader rd D (nb.reads cfg s) PyProbe.component (frameByTime cfg t.1 s) (frameByTime cfg t.2 s) nr nz) (nonzero : ∀ p ∈ cfg.probes, p.schedule ≠ 0)
    (schedule : ∀ p ∈ cfg.probes, nb.OnLine line p → p.component ∈ nb.wanted ∨ nb.keep = true → p.schedule = s)
    (probes : ∀ c ∈ nb.wanted, ∃ p ∈ cfg.probes, nb.OnLine line p ∧ p.component = c) :
    lineImages nb rd cfg t line autoselect = some (nb.wanted.map fun c =>
      (intRange (frameByTime cfg t.1 s) (frameByTime cfg t.2 s)).map fun n => nb.along D c line nr nz n) := by
  obtain ⟨st, k1, k2⟩ := probes_data (nb := nb) (line := line) step rfl rfl reader cfg.probes ⟨fun _ => .list [], none, none⟩
    (fun _ => ⟨Or.inl rfl, Or.inl rfl⟩) nonzero (fun p hp l w => ⟨hp, schedule p hp l (Or.inl w), w⟩) schedule
  have all : ∀ c ∈ nb.wanted, (st.data c).rows = (intRange (frameByTime cfg t.1 s) (frameByTime cfg t.2 s)).map (nb.along D c line nr nz) := by
    intro c hc
    rw [(k2 c hc).2 (probes c hc)]
    rfl
  have dat : lineData nb rd cfg t line autoselect = some st := by
    unfold lineData
    rw [k1, Option.bind_some, if_neg]
    rintro ⟨⟨c, c1, c2⟩, -⟩
    rw [all c c1, List.length_map, intRange_length] at c2
    omega
  unfold lineImages
  rw [dat, Option.bind_some]
  refine images_some fun c hc => ⟨all c hc, ?_, (if nb.radial = true then nr else nz).toNat, ?_⟩
  · rw [List.length_map, intRange_length]; omega
  · intro r hr
    obtain ⟨n, -, rfl⟩ := List.mem_map.1 hr
    exact along_length

/-- Probes of both components of the column 4, every five steps: the frames 0 to 19 of a grid with ten rows -/
example (D : List Char → ℤ → ℤ → ℤ → ℝ) : lineImages fieldColumn (mapsReader D 10 10) (seriesCfg 7 columnPair) (0, 100) 4 true =
    some (["E_r".toList, "E_z".toList].map fun c => (intRange 0 20).map fun n => (intRange 0 10).map fun i => D c n i 4) := by
  have := C119_line_partial fieldColumn (mapsReader D 10 10) (seriesCfg 7 columnPair) (0, 100) 4 5 10 10 D true (by norm_num [seriesCfg])
    (by rw [seriesCfg_from, seriesCfg_to]; norm_num) (mapsReader_faithful D _ _ _ _ _ _) (by simp [seriesCfg, columnPair]) (by simp [seriesCfg, columnPair])
    (by simp [fieldColumn, seriesCfg, columnPair, LineNotebook.OnLine])
  rw [seriesCfg_from, seriesCfg_to] at this
  exact this

/-- **C119**, windows, for rows: the row is saved by one window over all columns for each component, from the axis on, and the range of times is a whole number of files.  Then
the images have a row for every frame of the asked times, in order, with the values along the line. -/
theorem C119_window_partial (nb : LineNotebook) (rd : SeriesReader) (cfg : PyParams) (t : ℝ × ℝ) (line s nr : ℤ) (D : List Char → ℤ → ℤ → ℤ → ℝ) (rows : nb.radial = false)
    (only : OnlyAcross nb cfg line s) (order : frameByTime cfg t.1 s < frameByTime cfg t.2 s)
    (whole : cfg.frames_per_file ∣ frameByTime cfg t.2 s - frameByTime cfg t.1 s)
    (reader : FaithfulPieces rd D (nb.reads cfg s) PyProbe.component cfg.frames_per_file (frameByTime cfg t.1 s) (frameByTime cfg t.2 s)) (positive : 0 ≤ line)
    (axis : ∀ p ∈ cfg.probes, nb.Across cfg line p → p.component ∈ nb.wanted → p.r_start = 0 ∧ line < p.r_end) :
    lineImages nb rd cfg t line true = some (nb.wanted.map fun c =>
      (intRange (frameByTime cfg t.1 s) (frameByTime cfg t.2 s)).map fun n => nb.along D c line nr cfg.number_z_grid n) := by
  have pe := pieceEnd_eq only.files whole
  have := row_images (nr := nr) (r0 := 0) rows only order (by rw [pe]; exact reader) positive (by simpa only [zero_add] using axis)
  rw [pe] at this
  simpa only [zero_add] using this

/-- Windows over the whole grid, two files of ten frames -/
example (D : List Char → ℤ → ℤ → ℤ → ℝ) : lineImages fieldRow (mapsReader D 10 10) (seriesCfg 10 (acrossPair 0)) (0, 100) 3 true =
    some (["E_r".toList, "E_z".toList].map fun c => (intRange 0 20).map fun n => (intRange 0 10).map fun k => D c n 3 k) := by
  have := C119_window_partial fieldRow (mapsReader D 10 10) (seriesCfg 10 (acrossPair 0)) (0, 100) 3 5 10 D rfl (acrossPair_only 10 0 (by norm_num) (by norm_num))
    (by rw [seriesCfg_from, seriesCfg_to]; norm_num) (by rw [seriesCfg_from, seriesCfg_to]; norm_num [seriesCfg]) (mapsReader_pieces D _ _ _ _ _ _ _) (by norm_num)
    (by simp [seriesCfg, acrossPair])
  rw [seriesCfg_from, seriesCfg_to] at this
  exact this

/-- **C119 is violated by windows that do not begin at the axis**: another row is shown, as far from the edge of the window as the asked one is from the axis. -/
theorem C119_corner_violated (nb : LineNotebook) (rd : SeriesReader) (cfg : PyParams) (t : ℝ × ℝ) (line s nr r0 : ℤ) (D : List Char → ℤ → ℤ → ℤ → ℝ) (rows : nb.radial = false)
    (only : OnlyAcross nb cfg line s) (order : frameByTime cfg t.1 s < frameByTime cfg t.2 s)
    (whole : cfg.frames_per_file ∣ frameByTime cfg t.2 s - frameByTime cfg t.1 s)
    (reader : FaithfulPieces rd D (nb.reads cfg s) PyProbe.component cfg.frames_per_file (frameByTime cfg t.1 s) (frameByTime cfg t.2 s)) (positive : 0 ≤ line)
    (corner : ∀ p ∈ cfg.probes, nb.Across cfg line p → p.component ∈ nb.wanted → p.r_start = r0 ∧ r0 + line < p.r_end) :
    lineImages nb rd cfg t line true = some (nb.wanted.map fun c =>
      (intRange (frameByTime cfg t.1 s) (frameByTime cfg t.2 s)).map fun n => nb.along D c (r0 + line) nr cfg.number_z_grid n) := by
  have pe := pieceEnd_eq only.files whole
  have := row_images (nr := nr) rows only order (by rw [pe]; exact reader) positive corner
  rw [pe] at this
  exact this

/-- Windows from the row 2 on: the images for the row 3 are those of the row 5. -/
example (D : List Char → ℤ → ℤ → ℤ → ℝ) : lineImages fieldRow (mapsReader D 10 10) (seriesCfg 10 (acrossPair 2)) (0, 100) 3 true =
    some (["E_r".toList, "E_z".toList].map fun c => (intRange 0 20).map fun n => (intRange 0 10).map fun k => D c n 5 k) := by
  have := C119_corner_violated fieldRow (mapsReader D 10 10) (seriesCfg 10 (acrossPair 2)) (0, 100) 3 5 10 2 D rfl (acrossPair_only 10 2 (by norm_num) (by norm_num))
    (by rw [seriesCfg_from, seriesCfg_to]; norm_num) (by rw [seriesCfg_from, seriesCfg_to]; norm_num [seriesCfg]) (mapsReader_pieces D _ _ _ _ _ _ _) (by norm_num)
    (by simp [seriesCfg, acrossPair])
  rw [seriesCfg_from, seriesCfg_to] at this
  exact this

/-- **C119 is violated if the range of times is not a whole number of files**: windows are read to the end of the last piece, so that there are more rows than frames in the asked
times. -/
theorem C119_piece_violated (nb : LineNotebook) (rd : SeriesReader) (cfg : PyParams) (t : ℝ × ℝ) (line s nr hi : ℤ) (D : List Char → ℤ → ℤ → ℤ → ℝ) (rows : nb.radial = false)
    (only : OnlyAcross nb cfg line s) (order : frameByTime cfg t.1 s < frameByTime cfg t.2 s)
    (rest : ¬cfg.frames_per_file ∣ frameByTime cfg t.2 s - frameByTime cfg t.1 s) (more : frameByTime cfg t.2 s + cfg.frames_per_file ≤ hi)
    (reader : FaithfulPieces rd D (nb.reads cfg s) PyProbe.component cfg.frames_per_file (frameByTime cfg t.1 s) hi) (positive : 0 ≤ line)
    (axis : ∀ p ∈ cfg.probes, nb.Across cfg line p → p.component ∈ nb.wanted → p.r_start = 0 ∧ line < p.r_end) :
    ∃ last, frameByTime cfg t.2 s < last ∧ lineImages nb rd cfg t line true = some (nb.wanted.map fun c =>
      (intRange (frameByTime cfg t.1 s) last).map fun n => nb.along D c line nr cfg.number_z_grid n) := by
  have g1 := pieceEnd_ge (a := frameByTime cfg t.1 s) (b := frameByTime cfg t.2 s) only.files
  have g2 := pieceEnd_lt (a := frameByTime cfg t.1 s) (b := frameByTime cfg t.2 s) only.files
  have g3 := pieceEnd_dvd (frameByTime cfg t.1 s) (frameByTime cfg t.2 s) cfg.frames_per_file
  have := row_images (nr := nr) (r0 := 0) rows only order (pieces_mono reader (by omega)) positive (by simpa only [zero_add] using axis)
  refine ⟨_, lt_of_le_of_ne g1 fun e => rest ?_, by simpa only [zero_add] using this⟩
  rw [← e] at g3
  exact g3

/-- Files of seven frames -/
example (D : List Char → ℤ → ℤ → ℤ → ℝ) : ∃ last, 20 < last ∧ lineImages fieldRow (mapsReader D 10 10) (seriesCfg 7 (acrossPair 0)) (0, 100) 3 true =
    some (["E_r".toList, "E_z".toList].map fun c => (intRange 0 last).map fun n => (intRange 0 10).map fun k => D c n 3 k) := by
  have := C119_piece_violated fieldRow (mapsReader D 10 10) (seriesCfg 7 (acrossPair 0)) (0, 100) 3 5 10 40 D rfl (acrossPair_only 7 0 (by norm_num) (by norm_num))
    (by rw [seriesCfg_from, seriesCfg_to]; norm_num) (by rw [seriesCfg_from, seriesCfg_to]; norm_num [seriesCfg]) (by rw [seriesCfg_to]; norm_num [seriesCfg])
    (mapsReader_pieces D _ _ _ _ _ _ _) (by norm_num) (by simp [seriesCfg, acrossPair])
  rw [seriesCfg_from, seriesCfg_to] at this
  exact this

namespace SpaceTime

theorem column_pieces {nb : LineNotebook} {rd : SeriesReader} {D : List Char → ℤ → ℤ → ℤ → ℝ} {a b fpf line : ℤ} {p : PyProbe} (hn : nb.radial = true)
    (hab : a < b) (hb : b ≤ a + fpf) (hR : PiecesOf rd D p.component p fpf a (a + fpf)) (h1 : 0 ≤ line) (h2 : line < fpf) :
    (pyRangeStep a b fpf).bind (fun pieces => linePieces nb rd fpf line p a pieces (.list [])) =
      some (.list ((intRange p.r_start p.r_end).map fun i => (intRange p.z_start p.z_end).map fun k => D p.component (a + line) i k)) := by
  unfold pyRangeStep
  have q : (b - a + fpf - 1) / fpf = 1 := by
    have e1 : b - a + fpf - 1 = b - a - 1 + fpf := by ring
    rw [e1, Int.add_ediv_of_dvd_right (dvd_refl _), Int.ediv_self (by omega), Int.ediv_eq_zero_of_lt (by omega) (by omega)]
    rfl
  rw [if_neg (by omega), if_pos (by omega), Option.bind_some, q]
  simp only [Int.toNat_one, List.range_one, List.map_cons, List.map_nil, Nat.cast_zero, zero_mul, add_zero]
  have fr := hR 0 (by simp)
  simp only [Nat.cast_zero, zero_mul, add_zero] at fr
  rw [linePieces, fr, Option.bind_some]
  unfold LineNotebook.pick
  rw [hn, if_pos rfl, pyGet_range _ h1 (by omega), Option.bind_some]
  unfold LineData.assign
  simp [linePieces]

theorem column_raises {nb : LineNotebook} {rd : SeriesReader} {D : List Char → ℤ → ℤ → ℤ → ℝ} {a b fpf line : ℤ} {p : PyProbe} {d : LineData} (hn : nb.radial = true)
    (hf : 0 < fpf) (hab : a < b) (hR : PiecesOf rd D p.component p fpf a (a + fpf)) (h2 : fpf ≤ line) :
    (pyRangeStep a b fpf).bind (fun pieces => linePieces nb rd fpf line p a pieces d) = none := by
  unfold pyRangeStep
  obtain ⟨m, hm⟩ : ∃ m : ℕ, ((b - a + fpf - 1) / fpf).toNat = m + 1 := by
    have : 1 ≤ (b - a + fpf - 1) / fpf := (Int.le_ediv_iff_mul_le hf).2 (by omega)
    exact ⟨((b - a + fpf - 1) / fpf).toNat - 1, by omega⟩
  rw [if_neg (by omega), if_pos (by omega), Option.bind_some, hm, List.range_eq_range', List.range'_succ, List.map_cons, linePieces]
  simp only [Nat.cast_zero, zero_mul, add_zero]
  have fr := hR 0 (by simp)
  simp only [Nat.cast_zero, zero_mul, add_zero] at fr
  rw [fr, Option.bind_some]
  unfold LineNotebook.pick pyGet
  rw [hn, if_pos rfl, if_pos (by omega), getElem_range, if_neg (by omega)]
  rfl

/-- the first window of a wanted component ends the loop with an exception, if its pieces raise -/
theorem windows_raise {nb : LineNotebook} {rd : SeriesReader} {cfg : PyParams} {t : ℝ × ℝ} {line s a b : ℤ} {P : PyProbe → Prop}
    (hst : cfg.step_interval ≠ 0) (ha : a = frameByTime cfg t.1 s) (hb : b = frameByTime cfg t.2 s)
    (hN : ∀ p d, P p → ((pyRangeStep a b cfg.frames_per_file).bind fun pieces => linePieces nb rd cfg.frames_per_file line p a pieces d) = none) :
    ∀ (ps : List PyProbe) (st : LineState), Kept nb a b st → (∀ p ∈ ps, p.schedule ≠ 0) →
      (∀ p ∈ ps, nb.Across cfg line p → p.component ∈ nb.wanted → P p) →
      (∀ p ∈ ps, nb.Across cfg line p → p.component ∈ nb.wanted ∨ nb.keep = true → p.schedule = s) →
      (∃ p ∈ ps, nb.Across cfg line p ∧ p.component ∈ nb.wanted) → lineWindows nb rd cfg t line ps st = none
  | [], _, _, _, _, _, h => by simp at h
  | p :: ps, st, hk, h0, hP, hs, h => by
    have h0' := fun q (hq : q ∈ ps) => h0 q (by simp [hq])
    have hP' := fun q (hq : q ∈ ps) => hP q (by simp [hq])
    have hs' := fun q (hq : q ∈ ps) => hs q (by simp [hq])
    have later : ¬(nb.Across cfg line p ∧ p.component ∈ nb.wanted) → ∃ q ∈ ps, nb.Across cfg line q ∧ q.component ∈ nb.wanted := by
      intro hp
      obtain ⟨q, q1, q2⟩ := h
      rcases List.mem_cons.1 q1 with rfl | q1
      · exact absurd q2 hp
      · exact ⟨q, q1, q2⟩
    by_cases w : nb.Across cfg line p
    · by_cases c : p.component ∈ nb.wanted
      · rw [lineWindows, if_pos w, frames_some hst (h0 p (by simp)) ha hb hk (hs p (by simp) w (Or.inl c)), Option.bind_some, if_pos c]
        dsimp only
        have := hN p (st.data p.component) (hP p (by simp) w c)
        cases hq : pyRangeStep a b cfg.frames_per_file with
        | none => rfl
        | some pieces =>
          rw [hq, Option.bind_some] at this
          rw [Option.bind_some, this]
          rfl
      · obtain ⟨f, hf', hk'⟩ : ∃ f : ℤ × ℤ, lineFrames nb cfg t p st = some f ∧ Kept nb a b ⟨st.data, some f.1, some f.2⟩ := by
          by_cases k : nb.keep = true
          · exact ⟨_, frames_some hst (h0 p (by simp)) ha hb hk (hs p (by simp) w (Or.inr k)), fun _ => ⟨Or.inr rfl, Or.inr rfl⟩⟩
          · exact ⟨_, frames_any hst (h0 p (by simp)) k, fun k' => absurd k' k⟩
        rw [lineWindows, if_pos w, hf', Option.bind_some, if_neg c]
        split_ifs
        · rfl
        · exact windows_raise hst ha hb hN ps _ hk' h0' hP' hs' (later fun x => c x.2)
    · rw [lineWindows, if_neg w]
      exact windows_raise hst ha hb hN ps st hk h0' hP' hs' (later fun x => w x.1)

/-- Windows over all rows -/
def acrossColumns : List PyProbe := [⟨"frame".toList, "H_phi".toList, 5, 0, 0, 10, 10, []⟩]

theorem acrossColumns_only (fpf line : ℤ) (hf : 0 < fpf) (h : 0 ≤ line ∧ line ≤ 10) : OnlyAcross hphiColumn (seriesCfg fpf acrossColumns) line 5 where
  wanted := by simp [hphiColumn]
  step := by norm_num [seriesCfg]
  files := hf
  nonzero := by simp [seriesCfg, acrossColumns]
  lines := by simp [seriesCfg, acrossColumns, LineNotebook.OnLine, hphiColumn]
  schedule := by simp [seriesCfg, acrossColumns]
  window := by simp [seriesCfg, acrossColumns, LineNotebook.Across, hphiColumn, h]
  single := by simp [seriesCfg, acrossColumns]

end SpaceTime

/-- **C119 is violated by columns of windows**: the number of the column is used as the number of a frame.  Within the first piece the image is a map, over both coordinates, of the
frame so many frames after the first, whatever column is asked for; and if the column is beyond the frames of a file, the notebook raises. -/
theorem C119_column_violated (nb : LineNotebook) (rd : SeriesReader) (cfg : PyParams) (t : ℝ × ℝ) (line s z0 z1 : ℤ) (D : List Char → ℤ → ℤ → ℤ → ℝ)
    (columns : nb.radial = true) (only : OnlyAcross nb cfg line s) (order : frameByTime cfg t.1 s < frameByTime cfg t.2 s)
    (reader : FaithfulPieces rd D (nb.reads cfg s) PyProbe.component cfg.frames_per_file (frameByTime cfg t.1 s) (frameByTime cfg t.1 s + cfg.frames_per_file))
    (grid : 0 < cfg.number_r_grid) (positive : 0 ≤ line)
    (window : ∀ p ∈ cfg.probes, nb.Across cfg line p → p.component ∈ nb.wanted → p.z_start = z0 ∧ p.z_end = z1) :
    (line < cfg.frames_per_file → frameByTime cfg t.2 s ≤ frameByTime cfg t.1 s + cfg.frames_per_file →
      lineImages nb rd cfg t line true = some (nb.wanted.map fun c =>
        (intRange 0 cfg.number_r_grid).map fun i => (intRange z0 z1).map fun k => D c (frameByTime cfg t.1 s + line) i k)) ∧
    (cfg.frames_per_file ≤ line → lineImages nb rd cfg t line true = none) := by
  constructor
  · intro h1 h2
    obtain ⟨st, k1, k2⟩ := windows_all (rd := rd) (t := t)
      (fun p => (intRange p.r_start p.r_end).map fun i => (intRange p.z_start p.z_end).map fun k => D p.component (frameByTime cfg t.1 s + line) i k) only
      (fun p hp w c => column_pieces columns order h2 (reader p ⟨hp, only.schedule p hp w (Or.inl c), c⟩ w.1) positive h1)
    unfold lineImages
    rw [k1, Option.bind_some]
    refine images_some fun c hc => ⟨?_, ?_, (z1 - z0).toNat, ?_⟩
    · obtain ⟨p, p1, p2, p3, p4⟩ := k2 c hc
      obtain ⟨x1, x2⟩ := window p p1 p2 (p3 ▸ hc)
      have w := p2.2
      rw [columns, if_pos rfl] at w
      rw [p4, p3, x1, x2, w.2.1, w.2.2.2]
    · rw [List.length_map, intRange_length]; omega
    · intro r hr
      obtain ⟨n, -, rfl⟩ := List.mem_map.1 hr
      rw [List.length_map, intRange_length]
  · intro h
    obtain ⟨c, hc⟩ := List.exists_mem_of_ne_nil _ only.wanted
    obtain ⟨p, p1, p2, p3⟩ := only.window c hc
    have := windows_raise (rd := rd) (t := t) (nb := nb) (line := line) (P := fun p => nb.reads cfg s p ∧ p.type = "frame".toList) only.step rfl rfl
      (fun p d hp => column_raises columns only.files order (reader p hp.1 hp.2) h) cfg.probes ⟨fun _ => .list [], none, none⟩ (fun _ => ⟨Or.inl rfl, Or.inl rfl⟩)
      only.nonzero (fun p hp w c => ⟨⟨hp, only.schedule p hp w (Or.inl c), c⟩, w.1⟩) only.schedule ⟨p, p1, p2, p3 ▸ hc⟩
    unfold lineImages lineData
    rw [probes_miss _ _ only.lines, Option.bind_some, if_pos ⟨⟨c, hc, rfl⟩, rfl⟩, this]
    rfl

/-- Files of 100 frames: column 4 gives the map of the frame 4. -/
example (D : List Char → ℤ → ℤ → ℤ → ℝ) : lineImages hphiColumn (mapsReader D 10 10) (seriesCfg 100 acrossColumns) (0, 100) 4 true =
    some [(intRange 0 10).map fun i => (intRange 0 10).map fun k => D "H_phi".toList 4 i k] := by
  have := (C119_column_violated hphiColumn (mapsReader D 10 10) (seriesCfg 100 acrossColumns) (0, 100) 4 5 0 10 D rfl
    (acrossColumns_only 100 4 (by norm_num) (by norm_num)) (by rw [seriesCfg_from, seriesCfg_to]; norm_num) (mapsReader_pieces D _ _ _ _ _ _ _) (by norm_num [seriesCfg])
    (by norm_num) (by simp [seriesCfg, acrossColumns])).1 (by norm_num [seriesCfg]) (by rw [seriesCfg_from, seriesCfg_to]; norm_num [seriesCfg])
  rw [seriesCfg_from] at this
  exact this

/-- Files of three frames: column 4 raises. -/
example (D : List Char → ℤ → ℤ → ℤ → ℝ) : lineImages hphiColumn (mapsReader D 10 10) (seriesCfg 3 acrossColumns) (0, 100) 4 true = none :=
  (C119_column_violated hphiColumn (mapsReader D 10 10) (seriesCfg 3 acrossColumns) (0, 100) 4 5 0 10 D rfl
    (acrossColumns_only 3 4 (by norm_num) (by norm_num)) (by rw [seriesCfg_from, seriesCfg_to]; norm_num) (mapsReader_pieces D _ _ _ _ _ _ _) (by norm_num [seriesCfg])
    (by norm_num) (by simp [seriesCfg, acrossColumns])).2 (by norm_num [seriesCfg])

/-- **C119 is violated by two schedules on a line**: the notebooks of the magnetic field keep the range of frames of the first probe of the line, of whatever component.  The image of
the magnetic field, saved with the schedule `q.schedule`, then has the frames with the numbers of the other schedule. -/
theorem C119_schedule_violated (nb : LineNotebook) (rd : SeriesReader) (cfg : PyParams) (t : ℝ × ℝ) (line a b nr nz : ℤ) (p q : PyProbe) (D : List Char → ℤ → ℤ → ℤ → ℝ)
    (autoselect : Bool) (keep : nb.keep = true) (one : nb.wanted = [q.component]) (list : cfg.probes = [p, q]) (other : p.component ≠ q.component)
    (lines : nb.OnLine line p ∧ nb.OnLine line q) (step : cfg.step_interval ≠ 0) (nonzero : p.schedule ≠ 0)
    (from_ : a = frameByTime cfg t.1 p.schedule) (to_ : b = frameByTime cfg t.2 p.schedule) (first : 0 < a) (order : a < b)
    (reader : FaithfulReader rd D (· = q) PyProbe.component a b nr nz) :
    lineImages nb rd cfg t line autoselect = some [(intRange a b).map fun n => nb.along D q.component line nr nz n] := by
  have hp : p.component ∉ nb.wanted := by rw [one]; simpa using other
  have hq : q.component ∈ nb.wanted := by rw [one]; simp
  have ha : pyOrInt (some a) (lineFrame cfg t.1 q) = some a := by
    unfold pyOrInt; dsimp only; rw [if_neg (by omega)]
  have hb : pyOrInt (some b) (lineFrame cfg t.2 q) = some b := by
    unfold pyOrInt; dsimp only; rw [if_neg (by omega)]
  have k : lineProbes nb rd cfg t line cfg.probes ⟨fun _ => .list [], none, none⟩ = some ⟨Function.update (fun _ => .list []) q.component
      (.array ((intRange a b).map (nb.along D q.component line nr nz))), some a, some b⟩ := by
    rw [list, lineProbes, if_pos lines.1, frames_some step nonzero from_ to_ (fun _ => ⟨Or.inl rfl, Or.inl rfl⟩) rfl, Option.bind_some, if_neg hp, Option.bind_some,
      lineProbes, if_pos lines.2]
    unfold lineFrames
    dsimp only
    rw [if_pos keep, if_pos keep, ha, Option.bind_some, hb, Option.map_some, Option.bind_some, if_pos hq, line_read reader rfl lines.2, Option.map_some, Option.bind_some,
      lineProbes]
  have dat : ∀ c ∈ nb.wanted, (Function.update (fun _ => LineData.list []) q.component (.array ((intRange a b).map (nb.along D q.component line nr nz))) c).rows =
      (intRange a b).map (nb.along D c line nr nz) := by
    intro c hc
    rw [one, List.mem_singleton] at hc
    subst hc
    rw [Function.update_self]
    rfl
  unfold lineImages lineData
  rw [k, Option.bind_some, if_neg, Option.bind_some, images_some (V := fun c => (intRange a b).map (nb.along D c line nr nz)), one]
  · rfl
  · intro c hc
    refine ⟨dat c hc, ?_, (if nb.radial = true then nr else nz).toNat, ?_⟩
    · rw [List.length_map, intRange_length]; omega
    · intro r hr
      obtain ⟨n, -, rfl⟩ := List.mem_map.1 hr
      exact along_length
  · rintro ⟨⟨c, hc, c2⟩, -⟩
    dsimp only at c2
    rw [dat c hc, List.length_map, intRange_length] at c2
    omega

/-- The electric field of the column 4 every five steps, the magnetic one every step, and the times from 50 to 100: instead of the frames 50 to 99 of the magnetic field those from 10
to 19 are shown, which were saved at the times 10 to 19. -/
example (D : List Char → ℤ → ℤ → ℤ → ℝ) : lineImages hphiColumn (mapsReader D 10 10)
      (seriesCfg 100 [⟨"col".toList, "E_r".toList, 5, 0, 4, 0, 0, []⟩, ⟨"col".toList, "H_phi".toList, 1, 0, 4, 0, 0, []⟩]) (50, 100) 4 true =
    some [(intRange 10 20).map fun n => (intRange 0 10).map fun i => D "H_phi".toList n i 4] := by
  refine C119_schedule_violated hphiColumn (mapsReader D 10 10) (seriesCfg 100 [⟨"col".toList, "E_r".toList, 5, 0, 4, 0, 0, []⟩, ⟨"col".toList, "H_phi".toList, 1, 0, 4, 0, 0, []⟩]) (50, 100) 4 10 20 10 10
    ⟨"col".toList, "E_r".toList, 5, 0, 4, 0, 0, []⟩ ⟨"col".toList, "H_phi".toList, 1, 0, 4, 0, 0, []⟩ D true rfl rfl rfl (by simp) (by simp [hphiColumn, LineNotebook.OnLine]) (by norm_num [seriesCfg])
    (by norm_num) ?_ ?_ (by norm_num) (by norm_num) (mapsReader_faithful D _ _ _ _ _ _)
  · have := seriesCfg_frame 100 [⟨"col".toList, "E_r".toList, 5, 0, 4, 0, 0, []⟩, ⟨"col".toList, "H_phi".toList, 1, 0, 4, 0, 0, []⟩] 10 5 (by norm_num)
    norm_num at this
    exact this.symm
  · exact (seriesCfg_to _ _).symm

namespace SpaceTime

theorem log_nano : Int.log 10 (1 / 10 ^ 9 : ℝ) = -9 := by
  have : (1 / 10 ^ 9 : ℝ) = ((10 : ℕ) : ℝ) ^ (-9 : ℤ) := by norm_num
  rw [this, Int.log_zpow (by norm_num)]

theorem fmt3_nano : fmt3 (1 / 10 ^ 9) = 1 / 10 ^ 9 := by
  unfold fmt3
  rw [if_neg (by norm_num), abs_of_pos (by norm_num), log_nano]
  have : (1 / 10 ^ 9 : ℝ) / 10 ^ ((-9 : ℤ) - 2) = ((100 : ℤ) : ℝ) := by norm_num
  rw [this, round_intCast]
  norm_num

theorem ticks_nano : (guessTickSize (1 / 10 ^ 9) (1 / 10 ^ 9) 0 10).map (fun tick => npRound (1 / 10 ^ 9 / tick)) = some ((10 : ℕ) : ℤ) := by
  unfold guessTickSize
  have m : max (max (1 / 10 ^ 9 : ℝ) (1 / 10 ^ 9)) 0 = 1 / 10 ^ 9 := by rw [max_self]; exact max_eq_left (by norm_num)
  rw [m, if_neg (by norm_num), log_nano, Option.map_some]
  have e : (1 / 10 ^ 9 : ℝ) / 10 ^ (-9 : ℤ) = ((1 : ℤ) : ℝ) := by norm_num
  rw [e, Int.floor_intCast]
  have : (1 / 10 ^ 9 : ℝ) / (((1 : ℤ) : ℝ) / ((10 : ℤ) : ℝ) * 10 ^ (-9 : ℤ)) = ((10 : ℤ) : ℝ) := by norm_num
  rw [this, npRound_int]
  rfl

theorem last_nano {size : ℤ} (h : 0 < size) : ∃ xs, subplotAxis size ((10 : ℕ) : ℤ) 0 (1 / 10 ^ 9) = some (some xs) ∧ ((size : ℝ), some (1 / 10 ^ 9 : ℝ)) ∈ xs := by
  refine ⟨_, subplotAxis_eq h 10 _, List.mem_map.2 ⟨10, by simp, ?_⟩⟩
  rw [Prod.mk.injEq, if_neg (by norm_num)]
  refine ⟨by push_cast; ring, ?_⟩
  have : ((10 : ℕ) : ℝ) * (1 / 10 ^ 9 / ((10 : ℕ) : ℝ)) = 1 / 10 ^ 9 := by norm_num
  rw [this, fmt3_nano]

end SpaceTime

/-- **C119 is violated by the scales**: in the notebooks of the electric field both scales end with 1e-9 (metres and nanoseconds), whatever the size of the chamber and the range of times;
in those of the magnetic field they count cells and frames. -/
theorem C119_scale_violated (nb : LineNotebook) (cfg : PyParams) (rows : ℕ) (hr : 0 < rows) (grid : 0 < cfg.number_r_grid ∧ 0 < cfg.number_z_grid) :
    (nb.keep = false → ∃ xs ys, lineAxes nb cfg rows = some (some xs, some ys) ∧
      ((if nb.radial = true then (cfg.number_r_grid : ℝ) else cfg.number_z_grid), some (1 / 10 ^ 9)) ∈ xs ∧ ((rows : ℝ), some (1 / 10 ^ 9)) ∈ ys) ∧
    (nb.keep = true → lineAxes nb cfg rows = some (none, none)) := by
  constructor
  · intro k
    have hx : 0 < if nb.radial = true then cfg.number_r_grid else cfg.number_z_grid := by split_ifs <;> tauto
    obtain ⟨xs, x1, x2⟩ := last_nano hx
    obtain ⟨ys, y1, y2⟩ := last_nano (size := (rows : ℤ)) (by exact_mod_cast hr)
    refine ⟨xs, ys, ?_, ?_, by exact_mod_cast y2⟩
    · unfold lineAxes
      simp only [k, Bool.false_eq_true, if_false]
      rw [if_pos (⟨hx, by exact_mod_cast hr⟩ : _ ∧ (0 : ℤ) < rows), ticks_nano]
      simp only [Option.bind_eq_bind, Option.bind_some]
      rw [x1, Option.bind_some, y1, Option.bind_some]
      rfl
    · have : ((if nb.radial = true then cfg.number_r_grid else cfg.number_z_grid : ℤ) : ℝ) =
          if nb.radial = true then (cfg.number_r_grid : ℝ) else cfg.number_z_grid := by split_ifs <;> rfl
      rw [← this]
      exact x2
  · intro k
    unfold lineAxes
    simp only [k, if_true]
    rw [if_neg (by simp)]
    unfold subplotAxis linspace
    norm_num

/-- A chamber of one metre with ten rows, and twenty frames -/
example : ∃ xs ys, lineAxes fieldColumn (seriesCfg 7 columnPair) 20 = some (some xs, some ys) ∧ ((10 : ℝ), some (1 / 10 ^ 9)) ∈ xs ∧ ((20 : ℝ), some (1 / 10 ^ 9)) ∈ ys := by
  obtain ⟨xs, ys, h1, h2, h3⟩ := (C119_scale_violated fieldColumn (seriesCfg 7 columnPair) 20 (by norm_num) (by norm_num [seriesCfg])).1 rfl
  refine ⟨xs, ys, h1, ?_, by exact_mod_cast h3⟩
  simpa [fieldColumn, seriesCfg] using h2

end Verif
