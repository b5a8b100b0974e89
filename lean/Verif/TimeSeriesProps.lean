import Verif.TimeSeries
import Verif.PyIndexProps

/-!
# Curves over time (C114)
-/

namespace Verif

/-! ## Specification -/

/-- The reader gives what was dumped by the probes `P` in the frames from `lo` up to `hi`: `D c n i k` is the value of `c` in the cell `(i, k)` in the frame `n`, and a frame has `nr`
rows and `nz` columns.  Only the calls of the notebooks are named: the data of a point, a column or a row are read at once, under the name `nm p`.  That the reader of the plain files is
such a one is `C114_plain_reader` in PlainSeries. -/
structure FaithfulReader (rd : SeriesReader) (D : List Char → ℤ → ℤ → ℤ → ℝ) (P : PyProbe → Prop) (nm : PyProbe → List Char) (lo hi : ℤ) (nr nz : ℤ) : Prop where
  dot : ∀ p, P p → p.type = "dot".toList → rd.dot (nm p) p.r_start p.z_start lo hi = some ((intRange lo hi).map fun n => D (nm p) n p.r_start p.z_start)
  col : ∀ p, P p → p.type = "col".toList → rd.col (nm p) p.z_start lo hi =
    some ((intRange lo hi).map fun n => (intRange 0 nr).map fun i => D (nm p) n i p.z_start)
  row : ∀ p, P p → p.type = "row".toList → rd.row (nm p) p.r_start lo hi =
    some ((intRange lo hi).map fun n => (intRange 0 nz).map fun k => D (nm p) n p.r_start k)

/-- The reader gives the pieces of the window `p` with the name `c`: `fpf` frames at a time, beginning at `lo`, not beyond `hi` -/
def PiecesOf (rd : SeriesReader) (D : List Char → ℤ → ℤ → ℤ → ℝ) (c : List Char) (p : PyProbe) (fpf lo hi : ℤ) : Prop :=
  ∀ j : ℕ, lo + (j + 1) * fpf ≤ hi → rd.frame c (p.r_start, p.z_start, p.r_end, p.z_end) (lo + j * fpf) (lo + j * fpf + fpf) =
    some ((intRange (lo + j * fpf) (lo + j * fpf + fpf)).map fun n =>
      (intRange p.r_start p.r_end).map fun i => (intRange p.z_start p.z_end).map fun k => D c n i k)

/-- The reader gives the pieces of all windows among the probes `P` (`C114_plain_pieces` in PlainSeries) -/
def FaithfulPieces (rd : SeriesReader) (D : List Char → ℤ → ℤ → ℤ → ℝ) (P : PyProbe → Prop) (nm : PyProbe → List Char) (fpf lo hi : ℤ) : Prop :=
  ∀ p, P p → p.type = "frame".toList → PiecesOf rd D (nm p) p fpf lo hi

/-- The probes that a notebook reads: those of its components and its specie, saved every `s` steps -/
def SeriesNotebook.reads (nb : SeriesNotebook) (cfg : PyParams) (s : ℤ) (p : PyProbe) : Prop :=
  p ∈ cfg.probes ∧ p.schedule = s ∧ nb.ofSpecie p ∧ p.component ∈ nb.wanted

/-- The curve shows the frames of the times from `t.1` to `t.2`, saved every `s` steps, with the values `v`, and each within one and a half intervals between two frames of
the time it was dumped. -/
def ShowsSeries (cfg : PyParams) (t : ℝ × ℝ) (s : ℤ) (v : ℤ → ℝ) (curve : List (ℝ × ℝ)) : Prop :=
  (curve.length : ℤ) = frameByTime cfg t.2 s - frameByTime cfg t.1 s ∧
  ∀ (k : ℕ) (τ x : ℝ), curve[k]? = some (τ, x) → x = v (frameByTime cfg t.1 s + k) ∧
    |τ - timeByFrame cfg (frameByTime cfg t.1 s + k) s| ≤ 3 / 2 * (cfg.step_interval * s)

/-- The data set of a component: `E_r`, `T/electrons` -/
def SeriesNotebook.name (nb : SeriesNotebook) (c : List Char) : List Char :=
  match nb.specie with
  | none => c
  | some s => c ++ ['/'] ++ s

/-- A probe of the point -/
def SeriesNotebook.IsDot (nb : SeriesNotebook) (row col : ℤ) (p : PyProbe) : Prop :=
  p.type = "dot".toList ∧ nb.ofSpecie p ∧ p.r_start = row ∧ p.z_start = col

/-- A column or a row through the point -/
def SeriesNotebook.IsLine (nb : SeriesNotebook) (row col : ℤ) (p : PyProbe) : Prop :=
  nb.ofSpecie p ∧ (p.type = "col".toList ∧ p.z_start = col ∨ p.type = "row".toList ∧ p.r_start = row)

/-- A window that the notebook takes for one with the point in it -/
def SeriesNotebook.IsWindow (nb : SeriesNotebook) (row col : ℤ) (p : PyProbe) : Prop :=
  p.type = "frame".toList ∧ nb.ofSpecie p ∧ p.r_start ≤ row ∧ p.z_start ≤ col ∧ row ≤ p.r_end ∧ col ≤ p.z_end

/-- The point is saved by windows only, by exactly one for every component of the notebook, all with the schedule `s` -/
structure OnlyWindows (nb : SeriesNotebook) (cfg : PyParams) (row col s : ℤ) : Prop where
  wanted : nb.wanted ≠ []
  step : 0 < cfg.step_interval
  positive : 0 < s
  files : 0 < cfg.frames_per_file
  nonzero : ∀ p ∈ cfg.probes, p.schedule ≠ 0
  dots : ∀ p ∈ cfg.probes, ¬nb.IsDot row col p
  lines : ∀ p ∈ cfg.probes, ¬nb.IsLine row col p
  schedule : ∀ p ∈ cfg.probes, nb.IsWindow row col p → p.component ∈ nb.wanted → p.schedule = s
  window : ∀ c ∈ nb.wanted, ∃ p ∈ cfg.probes, nb.IsWindow row col p ∧ p.component = c
  single : cfg.probes.Pairwise fun p q => nb.IsWindow row col p → nb.IsWindow row col q → p.component ∈ nb.wanted → p.component ≠ q.component

namespace TimeSeries

theorem path_name {nb : SeriesNotebook} {p : PyProbe} (h : nb.ofSpecie p) : nb.path p = nb.name p.component := by
  unfold SeriesNotebook.path SeriesNotebook.name
  rcases h with h | h <;> rw [h]

theorem intRange_length (a b : ℤ) : (intRange a b).length = (b - a).toNat := by simp [intRange]

theorem intRange_append {a b c : ℤ} (h1 : a ≤ b) (h2 : b ≤ c) : intRange a b ++ intRange b c = intRange a c := by
  unfold intRange
  obtain ⟨m, rfl⟩ := Int.le.dest h1
  obtain ⟨n, rfl⟩ := Int.le.dest h2
  rw [show (a + m - a).toNat = m by omega, show (a + m + n - (a + m)).toNat = n by omega, show (a + m + n - a).toNat = m + n by omega,
    List.range_add, List.map_append, List.map_map]
  congr 1
  apply List.map_congr_left
  intro x _
  simp only [Function.comp]
  push_cast
  ring

theorem getElem_range {α : Type} (v : ℤ → α) (a b : ℤ) (k : ℕ) :
    ((intRange a b).map v)[k]? = if k < (b - a).toNat then some (v (a + k)) else none := by
  unfold intRange
  rw [List.map_map, List.getElem?_map]
  split_ifs with h
  · rw [List.getElem?_range h]; rfl
  · rw [List.getElem?_eq_none (by simpa using h)]; rfl

theorem frame_near {cfg : PyParams} (hs : 0 < cfg.step_interval) {s : ℤ} (h : 0 < s) (x : ℝ) :
    |x - timeByFrame cfg (frameByTime cfg x s) s| ≤ 1 / 2 * (cfg.step_interval * s) := by
  have hs' : (0 : ℝ) < s := by exact_mod_cast h
  have k := npRound_near (x / cfg.step_interval / s)
  have p : 0 < cfg.step_interval * s := by positivity
  have e : x - timeByFrame cfg (frameByTime cfg x s) s = (x / cfg.step_interval / s - npRound (x / cfg.step_interval / s)) * (cfg.step_interval * s) := by
    unfold timeByFrame frameByTime
    field_simp
  rw [e, abs_mul, abs_of_pos p]
  exact mul_le_mul_of_nonneg_right k p.le

theorem linspace_get {a b : ℝ} {n : ℕ} (hn : 1 ≤ n) : ∃ l, linspace a b n = some l ∧ l.length = n ∧
    ∀ k < n, ∃ θ : ℝ, 0 ≤ θ ∧ θ ≤ 1 ∧ l[k]? = some (a + θ * (b - a)) ∧ θ * ((n : ℝ) - 1) = k := by
  unfold linspace
  rw [if_neg (by omega)]
  by_cases h1 : n = 1
  · subst h1
    refine ⟨[a], by simp, rfl, ?_⟩
    intro k hk
    obtain rfl : k = 0 := by omega
    exact ⟨0, le_rfl, zero_le_one, by simp, by simp⟩
  · rw [if_neg (by exact_mod_cast h1)]
    refine ⟨_, rfl, by simp, ?_⟩
    intro k hk
    have n2 : (2 : ℝ) ≤ n := by exact_mod_cast (by omega : 2 ≤ n)
    have n0 : (0 : ℝ) < (n : ℝ) - 1 := by linarith
    have hk' : (k : ℝ) ≤ (n : ℝ) - 1 := by
      have : ((k + 1 : ℕ) : ℝ) ≤ n := by exact_mod_cast hk
      push_cast at this
      linarith
    refine ⟨k / ((n : ℝ) - 1), by positivity, by rw [div_le_one n0]; exact hk', ?_, by field_simp⟩
    rw [List.getElem?_map, List.getElem?_range (by simpa using hk)]
    simp only [Option.map_some, Int.cast_natCast, Option.some.injEq]
    field_simp

/-- The points of a curve -/
theorem curve_get {t : ℝ × ℝ} {st : SeriesState} {first c : List Char} {v : ℤ → ℝ} {a b : ℤ} (hab : a < b)
    (h1 : (st first).values.length = (b - a).toNat) (h2 : (st c).values = (intRange a b).map v) :
    ∃ curve, seriesCurve t st first c = some curve ∧ (curve.length : ℤ) = b - a ∧
      ∀ k : ℕ, (k : ℤ) < b - a → ∃ θ : ℝ, 0 ≤ θ ∧ θ ≤ 1 ∧ θ * (((b - a : ℤ) : ℝ) - 1) = k ∧ curve[k]? = some (t.1 + θ * (t.2 - t.1), v (a + k)) := by
  have hN : 1 ≤ (b - a).toNat := by omega
  obtain ⟨l, l1, l2, l3⟩ := linspace_get (a := t.1) (b := t.2) hN
  have l4 : ((intRange a b).map v).length = (b - a).toNat := by rw [List.length_map, intRange_length]
  refine ⟨l.zip ((intRange a b).map v), ?_, ?_, ?_⟩
  · unfold seriesCurve
    rw [h1, l1, Option.bind_some, h2, l2, l4, if_pos rfl]
  · rw [List.length_zip, l2, l4]; omega
  · intro k hk
    obtain ⟨θ, x0, x1, x2, x3⟩ := l3 k (by omega)
    refine ⟨θ, x0, x1, ?_, ?_⟩
    · rw [← x3]
      have : (((b - a).toNat : ℕ) : ℝ) = ((b - a : ℤ) : ℝ) := by
        have : (((b - a).toNat : ℕ) : ℤ) = b - a := by omega
        exact_mod_cast congrArg (Int.cast : ℤ → ℝ) this
      rw [this]
    · rw [List.getElem?_zip_eq_some]
      exact ⟨x2, by rw [getElem_range, if_pos (by omega)]⟩

theorem curve_last {t : ℝ × ℝ} {st : SeriesState} {first c : List Char} {v : ℤ → ℝ} {a b : ℤ} (hab : a + 1 < b)
    (h1 : (st first).values.length = (b - a).toNat) (h2 : (st c).values = (intRange a b).map v) :
    ∃ curve, seriesCurve t st first c = some curve ∧ (curve.length : ℤ) = b - a ∧ curve.getLast? = some (t.2, v (b - 1)) := by
  obtain ⟨curve, c1, c2, c3⟩ := curve_get (t := t) (by omega : a < b) h1 h2
  refine ⟨curve, c1, c2, ?_⟩
  obtain ⟨θ, -, -, x2, x3⟩ := c3 (curve.length - 1) (by omega)
  have e1 : ((curve.length - 1 : ℕ) : ℝ) = ((b - a : ℤ) : ℝ) - 1 := by
    have : ((curve.length - 1 : ℕ) : ℤ) = b - a - 1 := by omega
    have := congrArg (Int.cast : ℤ → ℝ) this
    push_cast at this ⊢
    linarith
  have θ1 : θ = 1 := by
    rw [e1] at x2
    have : (0 : ℝ) < ((b - a : ℤ) : ℝ) - 1 := by
      have : (1 : ℝ) < ((b - a : ℤ) : ℝ) := by exact_mod_cast (by omega : (1 : ℤ) < b - a)
      linarith
    exact mul_right_cancel₀ this.ne' (x2.trans (one_mul _).symm)
  rw [List.getLast?_eq_getElem?, x3, θ1, show a + ((curve.length - 1 : ℕ) : ℤ) = b - 1 by omega, one_mul, add_sub_cancel]

theorem curve_shows {cfg : PyParams} (hs : 0 < cfg.step_interval) {s : ℤ} (h : 0 < s) {t : ℝ × ℝ} {st : SeriesState} {first c : List Char} {v : ℤ → ℝ}
    (hab : frameByTime cfg t.1 s < frameByTime cfg t.2 s)
    (h1 : (st first).values.length = (frameByTime cfg t.2 s - frameByTime cfg t.1 s).toNat)
    (h2 : (st c).values = (intRange (frameByTime cfg t.1 s) (frameByTime cfg t.2 s)).map v) :
    ∃ curve, seriesCurve t st first c = some curve ∧ ShowsSeries cfg t s v curve := by
  obtain ⟨curve, c1, c2, c3⟩ := curve_get (t := t) hab h1 h2
  refine ⟨curve, c1, c2, ?_⟩
  intro k τ x hk
  have hk' : (k : ℤ) < frameByTime cfg t.2 s - frameByTime cfg t.1 s := by
    rw [← c2]
    exact_mod_cast (List.getElem?_eq_some_iff.1 hk).1
  obtain ⟨θ, x0, x1, x2, x3⟩ := c3 k hk'
  rw [x3] at hk
  simp only [Option.some.injEq, Prod.mk.injEq] at hk
  refine ⟨hk.2.symm, ?_⟩
  rw [← hk.1]
  have n1 := abs_le.1 (frame_near hs h t.1)
  have n2 := abs_le.1 (frame_near hs h t.2)
  have hs' : (0 : ℝ) < s := by exact_mod_cast h
  have p : 0 < cfg.step_interval * s := by positivity
  unfold timeByFrame at n1 n2 ⊢
  generalize frameByTime cfg t.1 s = a at *
  generalize frameByTime cfg t.2 s = b at *
  push_cast at x2 ⊢
  have e : t.1 + θ * (t.2 - t.1) - ((a : ℝ) + k) * cfg.step_interval * s =
      (1 - θ) * (t.1 - a * cfg.step_interval * s) + θ * (t.2 - b * cfg.step_interval * s) + θ * (cfg.step_interval * s) := by
    rw [← x2]; ring
  rw [e]
  have y : 0 ≤ 1 - θ := by linarith
  have m1 := mul_le_mul_of_nonneg_left n1.1 y
  have m2 := mul_le_mul_of_nonneg_left n1.2 y
  have m3 := mul_le_mul_of_nonneg_left n2.1 x0
  have m4 := mul_le_mul_of_nonneg_left n2.2 x0
  have m5 := mul_le_mul_of_nonneg_right x1 p.le
  have m6 : 0 ≤ θ * (cfg.step_interval * s) := by positivity
  rw [abs_le]
  constructor <;> linarith

theorem mapM_all {α β : Type} {f : α → Option β} {P : α → β → Prop} : ∀ {l : List α}, (∀ x ∈ l, ∃ y, f x = some y ∧ P x y) →
    ∃ ys, l.mapM f = some ys ∧ ys.length = l.length ∧ ∀ (i : ℕ) x y, l[i]? = some x → ys[i]? = some y → P x y
  | [], _ => ⟨[], rfl, rfl, by simp⟩
  | a :: l, h => by
    obtain ⟨y, y1, y2⟩ := h a (by simp)
    obtain ⟨ys, z1, z2, z3⟩ := mapM_all (l := l) fun x hx => h x (by simp [hx])
    refine ⟨y :: ys, by rw [List.mapM_cons, y1, z1]; rfl, by simp [z2], ?_⟩
    intro i x y'
    cases i with
    | zero =>
      simp only [List.getElem?_cons_zero, Option.some.injEq]
      rintro rfl rfl
      exact y2
    | succ i =>
      simp only [List.getElem?_cons_succ]
      exact z3 i x y'

/-! ## Points -/

theorem dots_hit {nb : SeriesNotebook} {rd : SeriesReader} {cfg : PyParams} {t : ℝ × ℝ} {row col : ℤ} {p : PyProbe} {ps : List PyProbe} {st : SeriesState}
    (hp : nb.IsDot row col p) : seriesDots nb rd cfg t row col (p :: ps) st = (seriesFrames cfg t p).bind fun f =>
      (nb.store st p (rd.dot (nb.path p) row col f.1 f.2)).bind fun st => seriesDots nb rd cfg t row col ps st := by
  rw [seriesDots]; exact if_pos hp

theorem dots_miss {nb : SeriesNotebook} {rd : SeriesReader} {cfg : PyParams} {t : ℝ × ℝ} {row col : ℤ} {p : PyProbe} {ps : List PyProbe} {st : SeriesState}
    (hp : ¬nb.IsDot row col p) : seriesDots nb rd cfg t row col (p :: ps) st = seriesDots nb rd cfg t row col ps st := by
  rw [seriesDots]; exact if_neg hp

theorem dots_data {nb : SeriesNotebook} {rd : SeriesReader} {cfg : PyParams} {t : ℝ × ℝ} {row col s a b nr nz : ℤ} {D : List Char → ℤ → ℤ → ℤ → ℝ} {P : PyProbe → Prop}
    (hst : cfg.step_interval ≠ 0) (ha : a = frameByTime cfg t.1 s) (hb : b = frameByTime cfg t.2 s) (hR : FaithfulReader rd D P nb.path a b nr nz) :
    ∀ (ps : List PyProbe) (st : SeriesState), (∀ p ∈ ps, p.schedule ≠ 0) →
      (∀ p ∈ ps, nb.IsDot row col p → p.component ∈ nb.wanted → p.schedule = s ∧ P p) →
      ∃ st', seriesDots nb rd cfg t row col ps st = some st' ∧ ∀ c,
        (st' c = st c ∨ st' c = .array ((intRange a b).map fun n => D (nb.name c) n row col)) ∧
        ((∃ p ∈ ps, nb.IsDot row col p ∧ p.component = c ∧ c ∈ nb.wanted) → st' c = .array ((intRange a b).map fun n => D (nb.name c) n row col)) ∧
        ((∀ p ∈ ps, nb.IsDot row col p → p.component ∈ nb.wanted → p.component ≠ c) → st' c = st c)
  | [], st, _, _ => ⟨st, rfl, fun c => ⟨Or.inl rfl, by simp, fun _ => rfl⟩⟩
  | p :: ps, st, h0, hs => by
    by_cases hp : nb.IsDot row col p
    · have e0 : seriesFrames cfg t p = some (frameByTime cfg t.1 p.schedule, frameByTime cfg t.2 p.schedule) := by
        unfold seriesFrames
        rw [if_neg (by have := h0 p (by simp); tauto)]
      by_cases hw : p.component ∈ nb.wanted
      · obtain ⟨hsch, hP⟩ := hs p (by simp) hp hw
        have hd := hR.dot p hP hp.1
        rw [hp.2.2.1, hp.2.2.2, path_name hp.2.1] at hd
        obtain ⟨st', k1, k2⟩ := dots_data (nb := nb) (row := row) (col := col) hst ha hb hR ps
          (Function.update st p.component (.array ((intRange a b).map fun n => D (nb.name p.component) n row col)))
          (fun q hq => h0 q (by simp [hq])) (fun q hq => hs q (by simp [hq]))
        refine ⟨st', ?_, ?_⟩
        · rw [dots_hit hp, e0, Option.bind_some, hsch, ← ha, ← hb, path_name hp.2.1]
          dsimp only
          rw [hd]
          unfold SeriesNotebook.store
          rw [if_pos hw, Option.map_some, Option.bind_some, k1]
        · intro c
          obtain ⟨j1, j2, j3⟩ := k2 c
          by_cases hc : p.component = c
          · subst hc
            have : st' p.component = .array ((intRange a b).map fun n => D (nb.name p.component) n row col) := by
              rcases j1 with j | j
              · rw [j, Function.update_self]
              · exact j
            exact ⟨Or.inr this, fun _ => this, fun h => absurd rfl (h p (by simp) hp hw)⟩
          · rw [Function.update_of_ne (Ne.symm hc)] at j1 j3
            refine ⟨j1, ?_, fun h => j3 fun q hq => h q (by simp [hq])⟩
            rintro ⟨q, q1, q2, q3, q4⟩
            rcases List.mem_cons.1 q1 with rfl | q1
            · exact absurd q3 hc
            · exact j2 ⟨q, q1, q2, q3, q4⟩
      · obtain ⟨st', k1, k2⟩ := dots_data (nb := nb) (row := row) (col := col) hst ha hb hR ps st
          (fun q hq => h0 q (by simp [hq])) (fun q hq => hs q (by simp [hq]))
        refine ⟨st', ?_, ?_⟩
        · rw [dots_hit hp, e0, Option.bind_some]
          unfold SeriesNotebook.store
          rw [if_neg hw, Option.bind_some, k1]
        · intro c
          obtain ⟨j1, j2, j3⟩ := k2 c
          refine ⟨j1, ?_, fun h => j3 fun q hq => h q (by simp [hq])⟩
          rintro ⟨q, q1, q2, q3, q4⟩
          rcases List.mem_cons.1 q1 with rfl | q1
          · exact absurd (q3 ▸ q4) hw
          · exact j2 ⟨q, q1, q2, q3, q4⟩
    · obtain ⟨st', k1, k2⟩ := dots_data (nb := nb) (row := row) (col := col) hst ha hb hR ps st
        (fun q hq => h0 q (by simp [hq])) (fun q hq => hs q (by simp [hq]))
      refine ⟨st', ?_, ?_⟩
      · rw [dots_miss hp, k1]
      · intro c
        obtain ⟨j1, j2, j3⟩ := k2 c
        refine ⟨j1, ?_, fun h => j3 fun q hq => h q (by simp [hq])⟩
        rintro ⟨q, q1, q2, q3, q4⟩
        rcases List.mem_cons.1 q1 with rfl | q1
        · exact absurd q2 hp
        · exact j2 ⟨q, q1, q2, q3, q4⟩

theorem no_dots {nb : SeriesNotebook} {rd : SeriesReader} {cfg : PyParams} {t : ℝ × ℝ} {row col : ℤ} :
    ∀ (ps : List PyProbe) (st : SeriesState), (∀ p ∈ ps, ¬nb.IsDot row col p) → seriesDots nb rd cfg t row col ps st = some st
  | [], _, _ => rfl
  | p :: ps, st, h => by rw [dots_miss (h p (by simp)), no_dots ps st fun q hq => h q (by simp [hq])]

theorem wanted_head {l : List (List Char)} {c : List Char} (h : c ∈ l) : l.headD [] ∈ l := by
  cases l with
  | nil => simp at h
  | cons a l => simp

theorem dots_all {nb : SeriesNotebook} {rd : SeriesReader} {cfg : PyParams} {t : ℝ × ℝ} {row col s nr nz : ℤ} {D : List Char → ℤ → ℤ → ℤ → ℝ}
    {autoselect : Bool} (hst : cfg.step_interval ≠ 0) (hab : frameByTime cfg t.1 s < frameByTime cfg t.2 s)
    (hR : FaithfulReader rd D (nb.reads cfg s) nb.path (frameByTime cfg t.1 s) (frameByTime cfg t.2 s) nr nz) (h0 : ∀ p ∈ cfg.probes, p.schedule ≠ 0)
    (hs : ∀ p ∈ cfg.probes, nb.IsDot row col p → p.component ∈ nb.wanted → p.schedule = s)
    (hp : ∀ c ∈ nb.wanted, ∃ p ∈ cfg.probes, nb.IsDot row col p ∧ p.component = c) :
    ∃ st, seriesData nb rd cfg t row col autoselect = some st ∧
      ∀ c ∈ nb.wanted, (st c).values = (intRange (frameByTime cfg t.1 s) (frameByTime cfg t.2 s)).map fun n => D (nb.name c) n row col := by
  obtain ⟨st, k1, k2⟩ := dots_data (nb := nb) (row := row) (col := col) hst rfl rfl hR cfg.probes (fun _ => .list []) h0
    (fun p hp d w => ⟨hs p hp d w, hp, hs p hp d w, d.2.1, w⟩)
  have all : ∀ c ∈ nb.wanted, (st c).values = (intRange (frameByTime cfg t.1 s) (frameByTime cfg t.2 s)).map fun n => D (nb.name c) n row col := by
    intro c hc
    obtain ⟨p, p1, p2, p3⟩ := hp c hc
    rw [(k2 c).2.1 ⟨p, p1, p2, p3, hc⟩]
    rfl
  refine ⟨st, ?_, all⟩
  unfold seriesData
  rw [k1, Option.bind_some, if_neg]
  rintro ⟨⟨c, c1, c2⟩, -⟩
  rw [all c c1, List.length_map, intRange_length] at c2
  omega

/-- A reader of a grid with `nr` rows and `nz` columns, for examples -/
noncomputable def mapsReader (D : List Char → ℤ → ℤ → ℤ → ℝ) (nr nz : ℤ) : SeriesReader where
  dot c i k a b := some ((intRange a b).map fun n => D c n i k)
  col c k a b := some ((intRange a b).map fun n => (intRange 0 nr).map fun i => D c n i k)
  row c i a b := some ((intRange a b).map fun n => (intRange 0 nz).map fun k => D c n i k)
  frame c w a b := some ((intRange a b).map fun n => (intRange w.1 w.2.2.1).map fun i => (intRange w.2.1 w.2.2.2).map fun k => D c n i k)

theorem mapsReader_faithful (D : List Char → ℤ → ℤ → ℤ → ℝ) (P : PyProbe → Prop) (nm : PyProbe → List Char) (lo hi nr nz : ℤ) :
    FaithfulReader (mapsReader D nr nz) D P nm lo hi nr nz :=
  ⟨fun _ _ _ => rfl, fun _ _ _ => rfl, fun _ _ _ => rfl⟩

theorem mapsReader_pieces (D : List Char → ℤ → ℤ → ℤ → ℝ) (P : PyProbe → Prop) (nm : PyProbe → List Char) (nr nz fpf lo hi : ℤ) :
    FaithfulPieces (mapsReader D nr nz) D P nm fpf lo hi :=
  fun _ _ _ _ _ => rfl

/-- A configuration with a step of one second, for examples -/
noncomputable def seriesCfg (fpf : ℤ) (probes : List PyProbe) : PyParams :=
  ⟨.bool false, 10, 10, 1, 1, probes, [], [], fpf, 1, 1, 1, 1, 1, 1, [], 0, 1000, 1⟩

theorem seriesCfg_frame (fpf : ℤ) (probes : List PyProbe) (n d : ℤ) (hd : d ≠ 0) : frameByTime (seriesCfg fpf probes) (n * d : ℤ) d = n := by
  have : ((n * d : ℤ) : ℝ) / (seriesCfg fpf probes).step_interval / d = ((n : ℤ) : ℝ) := by
    have : (d : ℝ) ≠ 0 := by exact_mod_cast hd
    simp only [seriesCfg]
    push_cast
    field_simp
  rw [frameByTime, this, npRound_int]

theorem seriesCfg_from (fpf : ℤ) (probes : List PyProbe) : frameByTime (seriesCfg fpf probes) 0 5 = 0 := by
  simpa using seriesCfg_frame fpf probes 0 5 (by norm_num)

theorem seriesCfg_to (fpf : ℤ) (probes : List PyProbe) : frameByTime (seriesCfg fpf probes) 100 5 = 20 := by
  have := seriesCfg_frame fpf probes 20 5 (by norm_num)
  norm_num at this
  exact this

/-- Probes of the point `(3, 4)` -/
def dotPair : List PyProbe := [⟨"dot".toList, "E_r".toList, 5, 3, 4, 0, 0, []⟩, ⟨"dot".toList, "E_z".toList, 5, 3, 4, 0, 0, []⟩]

/-- Windows with the corner `(r0, z0)` -/
def windowPair (r0 z0 : ℤ) : List PyProbe :=
  [⟨"frame".toList, "E_r".toList, 5, r0, z0, 10, 10, []⟩, ⟨"frame".toList, "E_z".toList, 5, r0, z0, 10, 10, []⟩]

theorem windowPair_only (fpf r0 z0 : ℤ) (hf : 0 < fpf) (h1 : r0 ≤ 3) (h2 : z0 ≤ 4) : OnlyWindows fieldNotebook (seriesCfg fpf (windowPair r0 z0)) 3 4 5 where
  wanted := by simp [fieldNotebook]
  step := by norm_num [seriesCfg]
  positive := by norm_num
  files := hf
  nonzero := by simp [seriesCfg, windowPair]
  dots := by simp [seriesCfg, windowPair, SeriesNotebook.IsDot]
  lines := by simp [seriesCfg, windowPair, SeriesNotebook.IsLine]
  schedule := by simp [seriesCfg, windowPair]
  window := by
    simp [seriesCfg, windowPair, SeriesNotebook.IsWindow, fieldNotebook, SeriesNotebook.ofSpecie]
    omega
  single := by simp [seriesCfg, windowPair]

end TimeSeries

open TimeSeries

/-- **C114**, probes of the point: if every component has a probe in the point, all saved with the same schedule `s`, then the curves show the frames of the asked times with the
values that were dumped, each within one and a half intervals of its time.

The full statement has the times of the dumps (violated, `C114_time_violated`), and holds for every list of probes that save the point (violated, see below). -/
theorem C114_dot_partial (nb : SeriesNotebook) (rd : SeriesReader) (cfg : PyParams) (t : ℝ × ℝ) (row col s nr nz : ℤ) (D : List Char → ℤ → ℤ → ℤ → ℝ)
    (autoselect : Bool) (step : 0 < cfg.step_interval) (hs : 0 < s) (order : frameByTime cfg t.1 s < frameByTime cfg t.2 s)
    (reader : FaithfulReader rd D (nb.reads cfg s) nb.path (frameByTime cfg t.1 s) (frameByTime cfg t.2 s) nr nz) (nonzero : ∀ p ∈ cfg.probes, p.schedule ≠ 0)
    (schedule : ∀ p ∈ cfg.probes, nb.IsDot row col p → p.component ∈ nb.wanted → p.schedule = s)
    (probes : ∀ c ∈ nb.wanted, ∃ p ∈ cfg.probes, nb.IsDot row col p ∧ p.component = c) :
    ∃ curves, seriesCurves nb rd cfg t row col autoselect = some curves ∧ curves.length = nb.wanted.length ∧
      ∀ (i : ℕ) (c : List Char) (curve : List (ℝ × ℝ)), nb.wanted[i]? = some c → curves[i]? = some curve → ShowsSeries cfg t s (fun n => D (nb.name c) n row col) curve := by
  obtain ⟨st, k1, k2⟩ := dots_all (autoselect := autoselect) step.ne' order reader nonzero schedule probes
  unfold seriesCurves
  rw [k1, Option.bind_some]
  refine mapM_all (P := fun c curve => ShowsSeries cfg t s (fun n => D (nb.name c) n row col) curve) fun c hc => ?_
  refine curve_shows step hs order ?_ (k2 c hc)
  rw [k2 _ (wanted_head hc), List.length_map, intRange_length]

/-- Probes of both components in the point `(3, 4)`, saved every five steps, and the frames 0 to 20 -/
example (D : List Char → ℤ → ℤ → ℤ → ℝ) : ∃ curves, seriesCurves fieldNotebook (mapsReader D 10 10) (seriesCfg 7 dotPair) (0, 100) 3 4 false = some curves ∧
    curves.length = 2 ∧ ∀ (i : ℕ) (c : List Char) (curve : List (ℝ × ℝ)), fieldNotebook.wanted[i]? = some c → curves[i]? = some curve →
      ShowsSeries (seriesCfg 7 dotPair) (0, 100) 5 (fun n => D c n 3 4) curve :=
  C114_dot_partial fieldNotebook _ _ (0, 100) 3 4 5 10 10 D false (by norm_num [seriesCfg]) (by norm_num) (by rw [seriesCfg_from, seriesCfg_to]; norm_num)
    (mapsReader_faithful D _ _ _ _ _ _) (by simp [seriesCfg, dotPair]) (by simp [seriesCfg, dotPair])
    (by simp [fieldNotebook, seriesCfg, dotPair, SeriesNotebook.IsDot, SeriesNotebook.ofSpecie])

/-- **C114 is violated by the times**: with probes in the point and a range of times from one dump to another, the last frame shown is drawn one interval later than it
was dumped. -/
theorem C114_time_violated (nb : SeriesNotebook) (rd : SeriesReader) (cfg : PyParams) (t : ℝ × ℝ) (row col s nr nz : ℤ) (D : List Char → ℤ → ℤ → ℤ → ℝ)
    (autoselect : Bool) (step : 0 < cfg.step_interval) (order : frameByTime cfg t.1 s + 1 < frameByTime cfg t.2 s)
    (exact : t.2 = timeByFrame cfg (frameByTime cfg t.2 s) s)
    (reader : FaithfulReader rd D (nb.reads cfg s) nb.path (frameByTime cfg t.1 s) (frameByTime cfg t.2 s) nr nz) (nonzero : ∀ p ∈ cfg.probes, p.schedule ≠ 0)
    (schedule : ∀ p ∈ cfg.probes, nb.IsDot row col p → p.component ∈ nb.wanted → p.schedule = s)
    (probes : ∀ c ∈ nb.wanted, ∃ p ∈ cfg.probes, nb.IsDot row col p ∧ p.component = c) :
    ∃ curves, seriesCurves nb rd cfg t row col autoselect = some curves ∧ curves.length = nb.wanted.length ∧
      ∀ (i : ℕ) (c : List Char) (curve : List (ℝ × ℝ)), nb.wanted[i]? = some c → curves[i]? = some curve →
        curve.getLast? = some (timeByFrame cfg (frameByTime cfg t.2 s - 1) s + cfg.step_interval * s, D (nb.name c) (frameByTime cfg t.2 s - 1) row col) := by
  obtain ⟨st, k1, k2⟩ := dots_all (autoselect := autoselect) step.ne' (by omega) reader nonzero schedule probes
  unfold seriesCurves
  rw [k1, Option.bind_some]
  refine mapM_all (P := fun c (curve : List (ℝ × ℝ)) => curve.getLast? = some (timeByFrame cfg (frameByTime cfg t.2 s - 1) s + cfg.step_interval * s,
    D (nb.name c) (frameByTime cfg t.2 s - 1) row col)) fun c hc => ?_
  obtain ⟨curve, c1, -, c3⟩ := curve_last (t := t) order (by rw [k2 _ (wanted_head hc), List.length_map, intRange_length]) (k2 c hc)
  refine ⟨curve, c1, c3.trans ?_⟩
  congr 2
  refine exact.trans ?_
  unfold timeByFrame
  push_cast
  ring

/-- The frame 19 of the time 95 is drawn at 100. -/
example (D : List Char → ℤ → ℤ → ℤ → ℝ) : ∃ curves, seriesCurves fieldNotebook (mapsReader D 10 10) (seriesCfg 7 dotPair) (0, 100) 3 4 false = some curves ∧
    ∀ (i : ℕ) (c : List Char) (curve : List (ℝ × ℝ)), fieldNotebook.wanted[i]? = some c → curves[i]? = some curve → curve.getLast? = some (100, D c 19 3 4) := by
  obtain ⟨curves, h1, -, h3⟩ := C114_time_violated fieldNotebook (mapsReader D 10 10) (seriesCfg 7 dotPair) (0, 100) 3 4 5 10 10 D false (by norm_num [seriesCfg])
    (by rw [seriesCfg_from, seriesCfg_to]; norm_num) (by rw [seriesCfg_to]; norm_num [timeByFrame, seriesCfg]) (mapsReader_faithful D _ _ _ _ _ _)
    (by simp [seriesCfg, dotPair]) (by simp [seriesCfg, dotPair]) (by simp [fieldNotebook, seriesCfg, dotPair, SeriesNotebook.IsDot, SeriesNotebook.ofSpecie])
  refine ⟨curves, h1, fun i c curve hc hi => (h3 i c curve hc hi).trans ?_⟩
  rw [seriesCfg_to]
  norm_num [timeByFrame, seriesCfg, SeriesNotebook.name, fieldNotebook]

namespace TimeSeries

/-! ## Windows -/

theorem areas_window {nb : SeriesNotebook} {rd : SeriesReader} {cfg : PyParams} {t : ℝ × ℝ} {row col : ℤ} {p : PyProbe} {ps : List PyProbe} {st : SeriesState}
    (hl : ¬nb.IsLine row col p) (hp : nb.IsWindow row col p) : seriesAreas nb rd cfg t row col (p :: ps) st = (seriesFrames cfg t p).bind fun f =>
      (if p.component ∈ nb.wanted then
        (pyRangeStep f.1 f.2 cfg.frames_per_file).bind fun pieces =>
        (seriesPieces nb rd cfg.frames_per_file row col p f.1 pieces (st p.component)).map fun d => Function.update st p.component d
       else if nb.specie = none ∧ cfg.frames_per_file = 0 then none else some st).bind fun st => seriesAreas nb rd cfg t row col ps st := by
  unfold SeriesNotebook.IsLine at hl
  rw [seriesAreas, if_neg (by tauto), if_neg (by tauto)]
  exact if_pos hp

theorem areas_miss {nb : SeriesNotebook} {rd : SeriesReader} {cfg : PyParams} {t : ℝ × ℝ} {row col : ℤ} {p : PyProbe} {ps : List PyProbe} {st : SeriesState}
    (hl : ¬nb.IsLine row col p) (hp : ¬nb.IsWindow row col p) :
    seriesAreas nb rd cfg t row col (p :: ps) st = seriesAreas nb rd cfg t row col ps st := by
  unfold SeriesNotebook.IsLine at hl
  rw [seriesAreas, if_neg (by tauto), if_neg (by tauto)]
  exact if_neg hp

theorem pyGet_range {α : Type} (f : ℤ → α) {r0 r1 j : ℤ} (h0 : 0 ≤ j) (h1 : j < r1 - r0) : pyGet ((intRange r0 r1).map f) j = some (f (r0 + j)) := by
  unfold pyGet
  rw [if_pos h0, getElem_range, if_pos (by omega)]
  congr 2
  omega

theorem mapM_some {α β : Type} (g : α → β) (f : α → Option β) : ∀ l : List α, (∀ x ∈ l, f x = some (g x)) → l.mapM f = some (l.map g)
  | [], _ => rfl
  | a :: l, h => by rw [List.mapM_cons, h a (by simp), mapM_some g f l fun x hx => h x (by simp [hx])]; rfl

/-- index of the row in the array of a window -/
def rowIn (nb : SeriesNotebook) (row : ℤ) (p : PyProbe) : ℤ := if nb.relative then row - p.r_start else row

/-- index of the column in the array of a window -/
def colIn (nb : SeriesNotebook) (col : ℤ) (p : PyProbe) : ℤ := if nb.relative then col - p.z_start else col

/-- the values that are read from a window -/
def windowValue (nb : SeriesNotebook) (D : List Char → ℤ → ℤ → ℤ → ℝ) (row col : ℤ) (p : PyProbe) (n : ℤ) : ℝ :=
  D (nb.name p.component) n (p.r_start + rowIn nb row p) (p.z_start + colIn nb col p)

/-- the indices are inside the window -/
def InWindow (nb : SeriesNotebook) (row col : ℤ) (p : PyProbe) : Prop :=
  0 ≤ rowIn nb row p ∧ rowIn nb row p < p.r_end - p.r_start ∧ 0 ≤ colIn nb col p ∧ colIn nb col p < p.z_end - p.z_start

theorem piece_read {nb : SeriesNotebook} {rd : SeriesReader} {D : List Char → ℤ → ℤ → ℤ → ℝ} {fpf row col start piece : ℤ} {p : PyProbe}
    {rest : List ℤ} {d : SeriesData} (hR : rd.frame (nb.path p) (p.r_start, p.z_start, p.r_end, p.z_end) piece (piece + fpf) =
      some ((intRange piece (piece + fpf)).map fun n =>
        (intRange p.r_start p.r_end).map fun i => (intRange p.z_start p.z_end).map fun k => D (nb.path p) n i k))
    (hsp : nb.ofSpecie p) (hin : InWindow nb row col p) :
    seriesPieces nb rd fpf row col p start (piece :: rest) d =
      (d.assign (piece - start) (piece - start + fpf - 1) ((intRange piece (piece + fpf)).map (windowValue nb D row col p))).bind fun d =>
        seriesPieces nb rd fpf row col p start rest d := by
  obtain ⟨i1, i2, i3, i4⟩ := hin
  rw [seriesPieces, hR, Option.bind_some, List.mapM_map, mapM_some (windowValue nb D row col p), Option.bind_some]
  intro n _
  show (pyGet _ (rowIn nb row p)).bind (fun r => pyGet r (colIn nb col p)) = _
  rw [pyGet_range _ i1 i2, Option.bind_some, pyGet_range _ i3 i4, path_name hsp]
  rfl

theorem pyIndex_end (n : ℕ) {a : ℤ} (h : (n : ℤ) ≤ a) : pyIndex n a = n := by
  unfold pyIndex
  rw [if_neg (by omega)]
  omega

theorem pieces_data {nb : SeriesNotebook} {rd : SeriesReader} {D : List Char → ℤ → ℤ → ℤ → ℝ} {hi fpf row col start : ℤ} {p : PyProbe}
    (hR : PiecesOf rd D (nb.path p) p fpf start hi) (hf : 0 < fpf) (hsp : nb.ofSpecie p) (hin : InWindow nb row col p) :
    ∀ n j : ℕ, start + ((j : ℤ) + n) * fpf ≤ hi →
      seriesPieces nb rd fpf row col p start ((List.range' j n).map fun (i : ℕ) => start + i * fpf)
        (.list ((intRange start (start + j * fpf)).map (windowValue nb D row col p))) =
      some (.list ((intRange start (start + (j + n) * fpf)).map (windowValue nb D row col p)))
  | 0, j, _ => by simp [seriesPieces]
  | n + 1, j, h => by
    push_cast at h
    have nn : 0 ≤ (n : ℤ) * fpf := by positivity
    have jj : 0 ≤ (j : ℤ) * fpf := by positivity
    have e : start + ((j : ℤ) + (n + 1)) * fpf = start + (j : ℤ) * fpf + n * fpf + fpf := by ring
    rw [e] at h
    have len : ((intRange start (start + j * fpf)).map (windowValue nb D row col p)).length = (j * fpf).toNat := by
      rw [List.length_map, intRange_length]; congr 1; ring
    rw [List.range'_succ, List.map_cons, piece_read (hR j (by rw [add_mul, one_mul]; omega)) hsp hin]
    unfold SeriesData.assign
    dsimp only
    rw [len, pyIndex_end _ (by omega), pyIndex_end _ (by omega), max_self, ← len, List.take_length, List.drop_length, List.append_nil, ← List.map_append,
      intRange_append (by omega) (by omega), Option.bind_some]
    have := pieces_data (nb := nb) (row := row) (col := col) hR hf hsp hin n (j + 1) (by push_cast; linarith)
    push_cast at this ⊢
    rw [show start + (j : ℤ) * fpf + fpf = start + (j + 1) * fpf by ring, this, show ((j : ℤ) + 1 + n) = j + (n + 1) by ring]

/-- the frame after the last piece of a window -/
def pieceEnd (a b fpf : ℤ) : ℤ := a + ((b - a + fpf - 1) / fpf) * fpf

theorem pieceEnd_eq {a b fpf : ℤ} (hf : 0 < fpf) (hd : fpf ∣ b - a) : pieceEnd a b fpf = b := by
  obtain ⟨k, hk⟩ := hd
  unfold pieceEnd
  rw [hk, show fpf * k + fpf - 1 = fpf - 1 + fpf * k by ring, Int.add_mul_ediv_left _ _ hf.ne', Int.ediv_eq_zero_of_lt (by omega) (by omega), zero_add,
    mul_comm k fpf, ← hk]
  ring

theorem pieceEnd_lt {a b fpf : ℤ} (hf : 0 < fpf) : pieceEnd a b fpf < b + fpf := by
  unfold pieceEnd
  have h1 := Int.emod_add_mul_ediv (b - a + fpf - 1) fpf
  have h2 := Int.emod_nonneg (b - a + fpf - 1) hf.ne'
  rw [mul_comm] at h1
  omega

theorem pieceEnd_dvd (a b fpf : ℤ) : fpf ∣ pieceEnd a b fpf - a := ⟨(b - a + fpf - 1) / fpf, by unfold pieceEnd; ring⟩

theorem pieces_mono {rd : SeriesReader} {D : List Char → ℤ → ℤ → ℤ → ℝ} {P : PyProbe → Prop} {nm : PyProbe → List Char} {fpf lo hi hi' : ℤ}
    (h : FaithfulPieces rd D P nm fpf lo hi) (hh : hi' ≤ hi) : FaithfulPieces rd D P nm fpf lo hi' :=
  fun p hp w j hj => h p hp w j (hj.trans hh)

theorem pieceEnd_ge {a b fpf : ℤ} (hf : 0 < fpf) : b ≤ pieceEnd a b fpf := by
  unfold pieceEnd
  have h1 := Int.emod_add_mul_ediv (b - a + fpf - 1) fpf
  have h2 := Int.emod_lt_of_pos (b - a + fpf - 1) hf
  rw [mul_comm] at h1
  omega

theorem window_pieces {nb : SeriesNotebook} {rd : SeriesReader} {D : List Char → ℤ → ℤ → ℤ → ℝ} {a b fpf row col : ℤ} {p : PyProbe}
    (hf : 0 < fpf) (hab : a ≤ b) (hR : PiecesOf rd D (nb.path p) p fpf a (pieceEnd a b fpf)) (hsp : nb.ofSpecie p) (hin : InWindow nb row col p) :
    (pyRangeStep a b fpf).bind (fun pieces => seriesPieces nb rd fpf row col p a pieces (.list [])) =
      some (.list ((intRange a (pieceEnd a b fpf)).map (windowValue nb D row col p))) := by
  unfold pyRangeStep
  rw [if_neg hf.ne', if_pos hf, Option.bind_some, List.range_eq_range']
  have q : 0 ≤ (b - a + fpf - 1) / fpf := Int.ediv_nonneg (by omega) hf.le
  have := pieces_data (nb := nb) (row := row) (col := col) hR hf hsp hin ((b - a + fpf - 1) / fpf).toNat 0 (by
    unfold pieceEnd; rw [Int.toNat_of_nonneg q]; push_cast; rw [zero_add])
  simp only [Nat.cast_zero, zero_mul, add_zero, zero_add, Int.toNat_of_nonneg q] at this
  rw [show intRange a a = [] by simp [intRange], List.map_nil] at this
  exact this

theorem areas_data {nb : SeriesNotebook} {rd : SeriesReader} {cfg : PyParams} {t : ℝ × ℝ} {row col s a b : ℤ} {D : List Char → ℤ → ℤ → ℤ → ℝ} {P : PyProbe → Prop}
    (hst : cfg.step_interval ≠ 0) (ha : a = frameByTime cfg t.1 s) (hb : b = frameByTime cfg t.2 s) (hab : a ≤ b) (hf : 0 < cfg.frames_per_file)
    (hR : FaithfulPieces rd D P nb.path cfg.frames_per_file a (pieceEnd a b cfg.frames_per_file)) :
    ∀ (ps : List PyProbe) (st : SeriesState), (∀ p ∈ ps, p.schedule ≠ 0) → (∀ p ∈ ps, ¬nb.IsLine row col p) →
      (∀ p ∈ ps, nb.IsWindow row col p → p.component ∈ nb.wanted → (p.schedule = s ∧ P p) ∧ InWindow nb row col p ∧ st p.component = .list []) →
      ps.Pairwise (fun p q => nb.IsWindow row col p → nb.IsWindow row col q → p.component ∈ nb.wanted → p.component ≠ q.component) →
      ∃ st', seriesAreas nb rd cfg t row col ps st = some st' ∧
        (∀ p ∈ ps, nb.IsWindow row col p → p.component ∈ nb.wanted →
          st' p.component = .list ((intRange a (pieceEnd a b cfg.frames_per_file)).map (windowValue nb D row col p))) ∧
        ∀ c, (∀ p ∈ ps, nb.IsWindow row col p → p.component ≠ c) → st' c = st c
  | [], st, _, _, _, _ => ⟨st, rfl, by simp, fun _ _ => rfl⟩
  | p :: ps, st, h0, hl, hw, hp => by
    have h0' := fun q (hq : q ∈ ps) => h0 q (by simp [hq])
    have hl' := fun q (hq : q ∈ ps) => hl q (by simp [hq])
    obtain ⟨hp1, hp2⟩ := List.pairwise_cons.1 hp
    by_cases w : nb.IsWindow row col p
    · have e0 : seriesFrames cfg t p = some (frameByTime cfg t.1 p.schedule, frameByTime cfg t.2 p.schedule) := by
        unfold seriesFrames
        rw [if_neg (by have := h0 p (by simp); tauto)]
      by_cases c : p.component ∈ nb.wanted
      · obtain ⟨w1, w2, w3⟩ := hw p (by simp) w c
        obtain ⟨st', k1, k2, k3⟩ := areas_data (nb := nb) (row := row) (col := col) hst ha hb hab hf hR ps
          (Function.update st p.component (.list ((intRange a (pieceEnd a b cfg.frames_per_file)).map (windowValue nb D row col p)))) h0' hl'
          (by
            intro q hq qw qc
            obtain ⟨x1, x2, x3⟩ := hw q (by simp [hq]) qw qc
            exact ⟨x1, x2, by rw [Function.update_of_ne (Ne.symm (hp1 q hq w qw c)), x3]⟩) hp2
        refine ⟨st', ?_, ?_, ?_⟩
        · have wp := window_pieces (nb := nb) (row := row) (col := col) hf hab (hR p w1.2 w.1) w.2.1 w2
          rw [areas_window (hl p (by simp)) w, e0, Option.bind_some, w1.1, if_pos c, w3]
          dsimp only
          obtain ⟨pieces, q1, q2⟩ := Option.bind_eq_some_iff.1 wp
          rw [← ha, ← hb, q1, Option.bind_some, q2, Option.map_some, Option.bind_some, k1]
        · intro q hq qw qc
          rcases List.mem_cons.1 hq with rfl | hq
          · rw [k3 _ fun r hr rw' => Ne.symm (hp1 r hr w rw' c), Function.update_self]
          · exact k2 q hq qw qc
        · intro d hd
          rw [k3 d fun r hr => hd r (by simp [hr]), Function.update_of_ne (Ne.symm (hd p (by simp) w))]
      · obtain ⟨st', k1, k2, k3⟩ := areas_data (nb := nb) (row := row) (col := col) hst ha hb hab hf hR ps st h0' hl'
          (fun q hq => hw q (by simp [hq])) hp2
        refine ⟨st', ?_, ?_, fun d hd => k3 d fun r hr => hd r (by simp [hr])⟩
        · rw [areas_window (hl p (by simp)) w, e0, Option.bind_some, if_neg c, if_neg (by omega), Option.bind_some, k1]
        · intro q hq qw qc
          rcases List.mem_cons.1 hq with rfl | hq
          · exact absurd qc c
          · exact k2 q hq qw qc
    · obtain ⟨st', k1, k2, k3⟩ := areas_data (nb := nb) (row := row) (col := col) hst ha hb hab hf hR ps st h0' hl'
        (fun q hq => hw q (by simp [hq])) hp2
      refine ⟨st', ?_, ?_, fun d hd => k3 d fun r hr => hd r (by simp [hr])⟩
      · rw [areas_miss (hl p (by simp)) w, k1]
      · intro q hq qw qc
        rcases List.mem_cons.1 hq with rfl | hq
        · exact absurd qw w
        · exact k2 q hq qw qc

theorem windows_all {nb : SeriesNotebook} {rd : SeriesReader} {cfg : PyParams} {t : ℝ × ℝ} {row col s : ℤ} {D : List Char → ℤ → ℤ → ℤ → ℝ}
    (h : OnlyWindows nb cfg row col s) (hab : frameByTime cfg t.1 s ≤ frameByTime cfg t.2 s)
    (hR : FaithfulPieces rd D (nb.reads cfg s) nb.path cfg.frames_per_file (frameByTime cfg t.1 s)
      (pieceEnd (frameByTime cfg t.1 s) (frameByTime cfg t.2 s) cfg.frames_per_file))
    (hin : ∀ p ∈ cfg.probes, nb.IsWindow row col p → p.component ∈ nb.wanted → InWindow nb row col p) :
    ∃ st, seriesData nb rd cfg t row col true = some st ∧ ∀ c ∈ nb.wanted, ∃ p ∈ cfg.probes, nb.IsWindow row col p ∧ p.component = c ∧
      (st c).values = (intRange (frameByTime cfg t.1 s) (pieceEnd (frameByTime cfg t.1 s) (frameByTime cfg t.2 s) cfg.frames_per_file)).map
        (windowValue nb D row col p) := by
  obtain ⟨st, k1, k2, -⟩ := areas_data (nb := nb) (row := row) (col := col) h.step.ne' rfl rfl hab h.files hR cfg.probes (fun _ => .list []) h.nonzero h.lines
    (fun p hp w c => ⟨⟨h.schedule p hp w c, hp, h.schedule p hp w c, w.2.1, c⟩, hin p hp w c, rfl⟩) h.single
  refine ⟨st, ?_, ?_⟩
  · unfold seriesData
    rw [no_dots _ _ h.dots, Option.bind_some, if_pos, k1]
    obtain ⟨c, hc⟩ := List.exists_mem_of_ne_nil _ h.wanted
    exact ⟨⟨c, hc, rfl⟩, rfl⟩
  · intro c hc
    obtain ⟨p, p1, p2, p3⟩ := h.window c hc
    refine ⟨p, p1, p2, p3, ?_⟩
    have := k2 p p1 p2 (p3 ▸ hc)
    rw [p3] at this
    rw [this]
    rfl

theorem windows_inside {nb : SeriesNotebook} {rd : SeriesReader} {cfg : PyParams} {t : ℝ × ℝ} {row col s : ℤ} {D : List Char → ℤ → ℤ → ℤ → ℝ}
    (h : OnlyWindows nb cfg row col s) (hab : frameByTime cfg t.1 s ≤ frameByTime cfg t.2 s)
    (hR : FaithfulPieces rd D (nb.reads cfg s) nb.path cfg.frames_per_file (frameByTime cfg t.1 s)
      (pieceEnd (frameByTime cfg t.1 s) (frameByTime cfg t.2 s) cfg.frames_per_file))
    (inside : ∀ p ∈ cfg.probes, nb.IsWindow row col p → p.component ∈ nb.wanted →
      row < p.r_end ∧ col < p.z_end ∧ (nb.relative = true ∨ p.r_start = 0 ∧ p.z_start = 0)) :
    ∃ st, seriesData nb rd cfg t row col true = some st ∧ ∀ c ∈ nb.wanted, (st c).values =
      (intRange (frameByTime cfg t.1 s) (pieceEnd (frameByTime cfg t.1 s) (frameByTime cfg t.2 s) cfg.frames_per_file)).map fun n => D (nb.name c) n row col := by
  obtain ⟨st, k1, k2⟩ := windows_all h hab hR (by
    intro p hp w c
    obtain ⟨i1, i2, i3⟩ := inside p hp w c
    obtain ⟨-, -, w1, w2, -, -⟩ := w
    unfold InWindow rowIn colIn
    rcases i3 with i3 | i3
    · rw [i3]; simp only [if_true]; omega
    · split_ifs <;> omega)
  refine ⟨st, k1, ?_⟩
  intro c hc
  obtain ⟨p, p1, p2, p3, p4⟩ := k2 c hc
  rw [p4]
  apply List.map_congr_left
  intro n _
  obtain ⟨-, -, i3⟩ := inside p p1 p2 (p3 ▸ hc)
  unfold windowValue rowIn colIn
  rw [p3]
  rcases i3 with i3 | ⟨i3, i4⟩
  · rw [i3]; simp only [if_true, add_sub_cancel]
  · rw [i3, i4]; simp only [sub_zero, ite_self, zero_add]

end TimeSeries

/-- **C114**, windows: the point is saved by one window for each component, the range of times is a whole number of files, and the indices fit: for the electric field the windows
begin at the corner of the grid.  Then the curves show the frames of the asked times with the values that were dumped. -/
theorem C114_window_partial (nb : SeriesNotebook) (rd : SeriesReader) (cfg : PyParams) (t : ℝ × ℝ) (row col s : ℤ) (D : List Char → ℤ → ℤ → ℤ → ℝ)
    (only : OnlyWindows nb cfg row col s) (order : frameByTime cfg t.1 s < frameByTime cfg t.2 s)
    (whole : cfg.frames_per_file ∣ frameByTime cfg t.2 s - frameByTime cfg t.1 s)
    (reader : FaithfulPieces rd D (nb.reads cfg s) nb.path cfg.frames_per_file (frameByTime cfg t.1 s) (frameByTime cfg t.2 s))
    (inside : ∀ p ∈ cfg.probes, nb.IsWindow row col p → p.component ∈ nb.wanted →
      row < p.r_end ∧ col < p.z_end ∧ (nb.relative = true ∨ p.r_start = 0 ∧ p.z_start = 0)) :
    ∃ curves, seriesCurves nb rd cfg t row col true = some curves ∧ curves.length = nb.wanted.length ∧
      ∀ (i : ℕ) (c : List Char) (curve : List (ℝ × ℝ)), nb.wanted[i]? = some c → curves[i]? = some curve →
        ShowsSeries cfg t s (fun n => D (nb.name c) n row col) curve := by
  have pe := pieceEnd_eq only.files whole
  obtain ⟨st, k1, val⟩ := windows_inside only order.le (by rw [pe]; exact reader) inside
  rw [pe] at val
  unfold seriesCurves
  rw [k1, Option.bind_some]
  refine mapM_all (P := fun c curve => ShowsSeries cfg t s (fun n => D (nb.name c) n row col) curve) fun c hc => ?_
  refine curve_shows only.step only.positive order ?_ (val c hc)
  rw [val _ (wanted_head hc), List.length_map, intRange_length]

/-- Windows over the whole grid, two files of ten frames -/
example (D : List Char → ℤ → ℤ → ℤ → ℝ) : ∃ curves, seriesCurves fieldNotebook (mapsReader D 10 10) (seriesCfg 10 (windowPair 0 0)) (0, 100) 3 4 true = some curves ∧
    curves.length = 2 ∧ ∀ (i : ℕ) (c : List Char) (curve : List (ℝ × ℝ)), fieldNotebook.wanted[i]? = some c → curves[i]? = some curve →
      ShowsSeries (seriesCfg 10 (windowPair 0 0)) (0, 100) 5 (fun n => D c n 3 4) curve :=
  C114_window_partial fieldNotebook _ _ (0, 100) 3 4 5 D (windowPair_only 10 0 0 (by norm_num) (by norm_num) (by norm_num))
    (by rw [seriesCfg_from, seriesCfg_to]; norm_num) (by rw [seriesCfg_from, seriesCfg_to]; norm_num [seriesCfg]) (mapsReader_pieces D _ _ _ _ _ _ _)
    (by simp [seriesCfg, windowPair])

/-- **C114 is violated by windows that do not begin at the corner**: the field notebook then shows another point, as far from the corner of the window as the asked one is from the corner
of the grid. -/
theorem C114_corner_violated (rd : SeriesReader) (cfg : PyParams) (t : ℝ × ℝ) (row col s r0 z0 : ℤ) (D : List Char → ℤ → ℤ → ℤ → ℝ)
    (only : OnlyWindows fieldNotebook cfg row col s) (order : frameByTime cfg t.1 s < frameByTime cfg t.2 s)
    (whole : cfg.frames_per_file ∣ frameByTime cfg t.2 s - frameByTime cfg t.1 s)
    (reader : FaithfulPieces rd D (fieldNotebook.reads cfg s) fieldNotebook.path cfg.frames_per_file (frameByTime cfg t.1 s) (frameByTime cfg t.2 s))
    (corner : ∀ p ∈ cfg.probes, fieldNotebook.IsWindow row col p → p.component ∈ fieldNotebook.wanted →
      p.r_start = r0 ∧ p.z_start = z0 ∧ r0 + row < p.r_end ∧ z0 + col < p.z_end) (point : 0 ≤ row ∧ 0 ≤ col) :
    ∃ curves, seriesCurves fieldNotebook rd cfg t row col true = some curves ∧ curves.length = 2 ∧
      ∀ (i : ℕ) (c : List Char) (curve : List (ℝ × ℝ)), fieldNotebook.wanted[i]? = some c → curves[i]? = some curve →
        ShowsSeries cfg t s (fun n => D c n (r0 + row) (z0 + col)) curve := by
  have pe := pieceEnd_eq only.files whole
  obtain ⟨st, k1, k2⟩ := windows_all only order.le (by rw [pe]; exact reader) (by
    intro p hp w c
    obtain ⟨i1, i2, i3, i4⟩ := corner p hp w c
    unfold InWindow rowIn colIn fieldNotebook
    simp only [Bool.false_eq_true, if_false]
    omega)
  have val : ∀ c ∈ fieldNotebook.wanted, (st c).values =
      (intRange (frameByTime cfg t.1 s) (frameByTime cfg t.2 s)).map fun n => D c n (r0 + row) (z0 + col) := by
    intro c hc
    obtain ⟨p, p1, p2, p3, p4⟩ := k2 c hc
    rw [p4, pe]
    obtain ⟨i1, i2, -⟩ := corner p p1 p2 (p3 ▸ hc)
    apply List.map_congr_left
    intro n _
    unfold windowValue rowIn colIn
    rw [p3, i1, i2]
    rfl
  unfold seriesCurves
  rw [k1, Option.bind_some]
  refine mapM_all (P := fun c curve => ShowsSeries cfg t s (fun n => D c n (r0 + row) (z0 + col)) curve) fun c hc => ?_
  refine curve_shows only.step only.positive order ?_ (val c hc)
  rw [val _ (wanted_head hc), List.length_map, intRange_length]

/-- Windows with the corner `(2, 2)`: the curves for `(3, 4)` are those of `(5, 6)`. -/
example (D : List Char → ℤ → ℤ → ℤ → ℝ) : ∃ curves, seriesCurves fieldNotebook (mapsReader D 10 10) (seriesCfg 10 (windowPair 2 2)) (0, 100) 3 4 true = some curves ∧
    curves.length = 2 ∧ ∀ (i : ℕ) (c : List Char) (curve : List (ℝ × ℝ)), fieldNotebook.wanted[i]? = some c → curves[i]? = some curve →
      ShowsSeries (seriesCfg 10 (windowPair 2 2)) (0, 100) 5 (fun n => D c n (2 + 3) (2 + 4)) curve :=
  C114_corner_violated _ _ (0, 100) 3 4 5 2 2 D (windowPair_only 10 2 2 (by norm_num) (by norm_num) (by norm_num))
    (by rw [seriesCfg_from, seriesCfg_to]; norm_num) (by rw [seriesCfg_from, seriesCfg_to]; norm_num [seriesCfg]) (mapsReader_pieces D _ _ _ _ _ _ _)
    (by simp [seriesCfg, windowPair]) (by norm_num)

/-- **C114 is violated if the range of times is not a whole number of files**: windows are read to the end of the last piece, and the frames after the asked times are squeezed into the
curve. -/
theorem C114_piece_violated (nb : SeriesNotebook) (rd : SeriesReader) (cfg : PyParams) (t : ℝ × ℝ) (row col s hi : ℤ) (D : List Char → ℤ → ℤ → ℤ → ℝ)
    (only : OnlyWindows nb cfg row col s) (order : frameByTime cfg t.1 s < frameByTime cfg t.2 s)
    (rest : ¬cfg.frames_per_file ∣ frameByTime cfg t.2 s - frameByTime cfg t.1 s) (more : frameByTime cfg t.2 s + cfg.frames_per_file ≤ hi)
    (reader : FaithfulPieces rd D (nb.reads cfg s) nb.path cfg.frames_per_file (frameByTime cfg t.1 s) hi)
    (inside : ∀ p ∈ cfg.probes, nb.IsWindow row col p → p.component ∈ nb.wanted →
      row < p.r_end ∧ col < p.z_end ∧ (nb.relative = true ∨ p.r_start = 0 ∧ p.z_start = 0)) :
    ∃ curves, seriesCurves nb rd cfg t row col true = some curves ∧ curves.length = nb.wanted.length ∧
      ∀ (i : ℕ) (c : List Char) (curve : List (ℝ × ℝ)), nb.wanted[i]? = some c → curves[i]? = some curve →
        frameByTime cfg t.2 s - frameByTime cfg t.1 s < curve.length ∧
        curve.getLast? = some (t.2, D (nb.name c) (frameByTime cfg t.1 s + curve.length - 1) row col) := by
  have g1 := pieceEnd_ge (a := frameByTime cfg t.1 s) (b := frameByTime cfg t.2 s) only.files
  have g2 := pieceEnd_lt (a := frameByTime cfg t.1 s) (b := frameByTime cfg t.2 s) only.files
  have g3 := pieceEnd_dvd (frameByTime cfg t.1 s) (frameByTime cfg t.2 s) cfg.frames_per_file
  obtain ⟨st, k1, val⟩ := windows_inside only order.le (pieces_mono reader (by omega)) inside
  have g4 : frameByTime cfg t.2 s < pieceEnd (frameByTime cfg t.1 s) (frameByTime cfg t.2 s) cfg.frames_per_file := by
    refine lt_of_le_of_ne g1 fun e => rest ?_
    rw [← e] at g3
    exact g3
  generalize pieceEnd (frameByTime cfg t.1 s) (frameByTime cfg t.2 s) cfg.frames_per_file = E at *
  unfold seriesCurves
  rw [k1, Option.bind_some]
  refine mapM_all (P := fun c (curve : List (ℝ × ℝ)) => frameByTime cfg t.2 s - frameByTime cfg t.1 s < curve.length ∧
    curve.getLast? = some (t.2, D (nb.name c) (frameByTime cfg t.1 s + curve.length - 1) row col)) fun c hc => ?_
  obtain ⟨curve, c1, c2, c3⟩ := curve_last (t := t) (by omega : frameByTime cfg t.1 s + 1 < E)
    (by rw [val _ (wanted_head hc), List.length_map, intRange_length]) (val c hc)
  refine ⟨curve, c1, by omega, ?_⟩
  rw [c3, c2]
  congr 3
  ring

/-- Files of seven frames: the twenty frames of the asked times become twenty-one or more. -/
example (D : List Char → ℤ → ℤ → ℤ → ℝ) : ∃ curves, seriesCurves fieldNotebook (mapsReader D 10 10) (seriesCfg 7 (windowPair 0 0)) (0, 100) 3 4 true = some curves ∧
    ∀ (i : ℕ) (c : List Char) (curve : List (ℝ × ℝ)), fieldNotebook.wanted[i]? = some c → curves[i]? = some curve → 20 < curve.length := by
  obtain ⟨curves, h1, -, h3⟩ := C114_piece_violated fieldNotebook (mapsReader D 10 10) (seriesCfg 7 (windowPair 0 0)) (0, 100) 3 4 5 40 D
    (windowPair_only 7 0 0 (by norm_num) (by norm_num) (by norm_num)) (by rw [seriesCfg_from, seriesCfg_to]; norm_num)
    (by rw [seriesCfg_from, seriesCfg_to]; norm_num [seriesCfg]) (by rw [seriesCfg_to]; norm_num [seriesCfg]) (mapsReader_pieces D _ _ _ _ _ _ _)
    (by simp [seriesCfg, windowPair])
  refine ⟨curves, h1, fun i c curve hc hi => ?_⟩
  have := (h3 i c curve hc hi).1
  rw [seriesCfg_from, seriesCfg_to] at this
  omega

/-! ## Other lists of probes -/

namespace TimeSeries

theorem areas_line {nb : SeriesNotebook} {rd : SeriesReader} {cfg : PyParams} {t : ℝ × ℝ} {row col s nr nz : ℤ} {D : List Char → ℤ → ℤ → ℤ → ℝ}
    {p : PyProbe} {ps : List PyProbe} {st : SeriesState} (hst : cfg.step_interval ≠ 0) (hs : s ≠ 0) (hl : nb.IsLine row col p) (hp : p.schedule = s)
    (hw : p.component ∈ nb.wanted) (hm : p ∈ cfg.probes) (hR : FaithfulReader rd D (nb.reads cfg s) nb.path (frameByTime cfg t.1 s) (frameByTime cfg t.2 s) nr nz)
    (hrow : 0 ≤ row ∧ row < nr) (hcol : 0 ≤ col ∧ col < nz) : seriesAreas nb rd cfg t row col (p :: ps) st =
      some (Function.update st p.component
        (.array ((intRange (frameByTime cfg t.1 s) (frameByTime cfg t.2 s)).map fun n => D (nb.name p.component) n row col))) := by
  have e0 : seriesFrames cfg t p = some (frameByTime cfg t.1 s, frameByTime cfg t.2 s) := by
    unfold seriesFrames
    rw [hp, if_neg (by tauto)]
  obtain ⟨l1, l2⟩ := hl
  have dec : ∀ f : ℤ → List ℝ, ∀ j : ℤ, (∀ n, pyGet (f n) j = some (D (nb.name p.component) n row col)) →
      npColumn ((intRange (frameByTime cfg t.1 s) (frameByTime cfg t.2 s)).map f) j =
        some ((intRange (frameByTime cfg t.1 s) (frameByTime cfg t.2 s)).map fun n => D (nb.name p.component) n row col) := by
    intro f j hj
    unfold npColumn
    rw [List.mapM_map]
    exact mapM_some _ _ _ fun n _ => hj n
  rw [seriesAreas]
  by_cases hc : p.type = "col".toList ∧ nb.ofSpecie p ∧ p.z_start = col
  · have h := hR.col p ⟨hm, hp, l1, hw⟩ hc.1
    rw [hc.2.2, path_name l1] at h
    rw [if_pos hc, e0, Option.bind_some, path_name l1, h, Option.bind_some, dec _ _ fun n => by
      rw [pyGet_range _ hrow.1 (by omega), zero_add]]
    unfold SeriesNotebook.store
    rw [if_pos hw, Option.map_some]
  · have hr : p.type = "row".toList ∧ nb.ofSpecie p ∧ p.r_start = row := by tauto
    have h := hR.row p ⟨hm, hp, l1, hw⟩ hr.1
    rw [hr.2.2, path_name l1] at h
    rw [if_neg hc, if_pos hr, e0, Option.bind_some, path_name l1, h, Option.bind_some, dec _ _ fun n => by
      rw [pyGet_range _ hcol.1 (by omega), zero_add]]
    unfold SeriesNotebook.store
    rw [if_pos hw, Option.map_some]

theorem areas_other {nb : SeriesNotebook} {rd : SeriesReader} {cfg : PyParams} {t : ℝ × ℝ} {row col : ℤ} {p : PyProbe} {ps : List PyProbe} {st : SeriesState}
    (hst : cfg.step_interval ≠ 0) (hs : p.schedule ≠ 0) (hl : nb.IsLine row col p) (hw : p.component ∉ nb.wanted) :
    seriesAreas nb rd cfg t row col (p :: ps) st = some st := by
  have e0 : seriesFrames cfg t p = some (frameByTime cfg t.1 p.schedule, frameByTime cfg t.2 p.schedule) := by
    unfold seriesFrames
    rw [if_neg (by tauto)]
  obtain ⟨l1, l2⟩ := hl
  rw [seriesAreas]
  unfold SeriesNotebook.store
  by_cases hc : p.type = "col".toList ∧ nb.ofSpecie p ∧ p.z_start = col
  · rw [if_pos hc, e0, Option.bind_some, if_neg hw]
  · rw [if_neg hc, if_pos (by tauto), e0, Option.bind_some, if_neg hw]

end TimeSeries

/-- **C114 is violated by columns and rows of both fields**: a column or a row of one of the components ends the search, the other component stays empty, and drawing raises.  `ps` may hold
probes of the other component. -/
theorem C114_line_violated (rd : SeriesReader) (cfg : PyParams) (t : ℝ × ℝ) (row col s nr nz : ℤ) (D : List Char → ℤ → ℤ → ℤ → ℝ)
    (p : PyProbe) (ps : List PyProbe) (probes : cfg.probes = p :: ps) (step : 0 < cfg.step_interval) (hs : 0 < s) (schedule : p.schedule = s)
    (line : fieldNotebook.IsLine row col p) (component : p.component ∈ fieldNotebook.wanted) (dots : ∀ q ∈ p :: ps, ¬fieldNotebook.IsDot row col q)
    (order : frameByTime cfg t.1 s < frameByTime cfg t.2 s)
    (reader : FaithfulReader rd D (fieldNotebook.reads cfg s) fieldNotebook.path (frameByTime cfg t.1 s) (frameByTime cfg t.2 s) nr nz)
    (inside : 0 ≤ row ∧ row < nr ∧ 0 ≤ col ∧ col < nz) : seriesCurves fieldNotebook rd cfg t row col true = none := by
  obtain ⟨i1, i2, i3, i4⟩ := inside
  unfold seriesCurves seriesData
  rw [probes, no_dots _ _ dots, Option.bind_some, if_pos ⟨⟨p.component, component, rfl⟩, rfl⟩,
    areas_line step.ne' hs.ne' line schedule component (by rw [probes]; simp) reader ⟨i1, i2⟩ ⟨i3, i4⟩, Option.bind_some]
  obtain ⟨l, hl⟩ : ∃ l, l = (intRange (frameByTime cfg t.1 s) (frameByTime cfg t.2 s)).map fun n => D (fieldNotebook.name p.component) n row col := ⟨_, rfl⟩
  have hlen : 1 ≤ l.length := by
    rw [hl, List.length_map, intRange_length]; omega
  rw [← hl]
  have ne : "E_r".toList ≠ "E_z".toList := by decide
  have hc : p.component = "E_r".toList ∨ p.component = "E_z".toList := by simpa [fieldNotebook] using component
  show List.mapM _ ["E_r".toList, "E_z".toList] = none
  rcases hc with hc | hc
  · rw [hc]
    obtain ⟨ts, q1, q2, -⟩ := linspace_get (a := t.1) (b := t.2) hlen
    have bad : seriesCurve t (Function.update (fun _ => SeriesData.list []) "E_r".toList (.array l)) (fieldNotebook.wanted.headD []) "E_z".toList = none := by
      show seriesCurve t _ "E_r".toList _ = none
      unfold seriesCurve
      rw [Function.update_self, Function.update_of_ne ne.symm]
      show (linspace t.1 t.2 (l.length : ℤ)).bind _ = none
      rw [q1, Option.bind_some, if_neg (by rw [q2]; simp only [SeriesData.values, List.length_nil]; omega)]
    rw [List.mapM_cons, List.mapM_cons, bad]
    cases seriesCurve t (Function.update (fun _ => SeriesData.list []) "E_r".toList (.array l)) (fieldNotebook.wanted.headD []) "E_r".toList <;> rfl
  · rw [hc]
    have bad : seriesCurve t (Function.update (fun _ => SeriesData.list []) "E_z".toList (.array l)) (fieldNotebook.wanted.headD []) "E_z".toList = none := by
      show seriesCurve t _ "E_r".toList _ = none
      unfold seriesCurve
      rw [Function.update_self, Function.update_of_ne ne]
      have : linspace t.1 t.2 ((SeriesData.list []).values.length : ℤ) = some [] := by simp [linspace, SeriesData.values]
      rw [this, Option.bind_some, if_neg (by simp only [SeriesData.values, List.length_nil]; omega)]
    rw [List.mapM_cons, List.mapM_cons, bad]
    cases seriesCurve t (Function.update (fun _ => SeriesData.list []) "E_z".toList (.array l)) (fieldNotebook.wanted.headD []) "E_r".toList <;> rfl

/-- A column of `E_r` through the point, and one of `E_z` -/
example (D : List Char → ℤ → ℤ → ℤ → ℝ) : seriesCurves fieldNotebook (mapsReader D 10 10)
    (seriesCfg 10 [⟨"col".toList, "E_r".toList, 5, 0, 4, 0, 0, []⟩, ⟨"col".toList, "E_z".toList, 5, 0, 4, 0, 0, []⟩]) (0, 100) 3 4 true = none :=
  C114_line_violated _ _ (0, 100) 3 4 5 10 10 D _ _ rfl (by norm_num [seriesCfg]) (by norm_num) rfl
    ⟨Or.inl rfl, Or.inl ⟨rfl, rfl⟩⟩ (by simp [fieldNotebook]) (by simp [SeriesNotebook.IsDot]) (by rw [seriesCfg_from, seriesCfg_to]; norm_num)
    (mapsReader_faithful D _ _ _ _ _ _) (by norm_num)

/-- **C114 is violated by a column or a row of another component**: it ends the search as well, and the curves have no points, whatever windows follow. -/
theorem C114_hidden_violated (nb : SeriesNotebook) (rd : SeriesReader) (cfg : PyParams) (t : ℝ × ℝ) (row col : ℤ)
    (p : PyProbe) (ps : List PyProbe) (probes : cfg.probes = p :: ps) (step : 0 < cfg.step_interval) (schedule : 0 < p.schedule)
    (line : nb.IsLine row col p) (component : p.component ∉ nb.wanted) (dots : ∀ q ∈ p :: ps, ¬nb.IsDot row col q) :
    seriesCurves nb rd cfg t row col true = some (nb.wanted.map fun _ => []) := by
  have hd : seriesData nb rd cfg t row col true = some fun _ => .list [] := by
    unfold seriesData
    rw [probes, no_dots _ _ dots, Option.bind_some, areas_other step.ne' schedule.ne' line component, ite_self]
  unfold seriesCurves
  rw [hd, Option.bind_some]
  apply TimeSeries.mapM_some
  intro c _
  simp [seriesCurve, linspace, SeriesData.values]

/-- A column of the current through the point, before the windows -/
example (D : List Char → ℤ → ℤ → ℤ → ℝ) : seriesCurves fieldNotebook (mapsReader D 10 10)
    (seriesCfg 10 (⟨"col".toList, "J_z".toList, 5, 0, 4, 0, 0, []⟩ :: windowPair 0 0)) (0, 100) 3 4 true = some [[], []] :=
  C114_hidden_violated fieldNotebook _ _ (0, 100) 3 4 _ _ rfl (by norm_num [seriesCfg]) (by norm_num)
    ⟨Or.inl rfl, Or.inl ⟨rfl, rfl⟩⟩ (by simp [fieldNotebook]) (by simp [SeriesNotebook.IsDot, windowPair])

/-- **C114 is violated by two windows of one component**: the second is spliced into the data of the first, and the curve has one point too many. -/
theorem C114_two_windows_violated (specie : List Char) (rd : SeriesReader) (cfg : PyParams) (t : ℝ × ℝ) (row col s : ℤ) (D : List Char → ℤ → ℤ → ℤ → ℝ)
    (p q : PyProbe) (probes : cfg.probes = [p, q]) (step : 0 < cfg.step_interval) (hs : 0 < s) (schedule : p.schedule = s ∧ q.schedule = s)
    (component : p.component = "T".toList ∧ q.component = "T".toList)
    (windows : (temperatureNotebook specie).IsWindow row col p ∧ (temperatureNotebook specie).IsWindow row col q)
    (inside : row < p.r_end ∧ col < p.z_end ∧ row < q.r_end ∧ col < q.z_end)
    (files : 0 < cfg.frames_per_file) (one : frameByTime cfg t.2 s = frameByTime cfg t.1 s + cfg.frames_per_file)
    (reader : FaithfulPieces rd D ((temperatureNotebook specie).reads cfg s) (temperatureNotebook specie).path cfg.frames_per_file (frameByTime cfg t.1 s) (frameByTime cfg t.2 s)) :
    ∃ curve, seriesCurves (temperatureNotebook specie) rd cfg t row col true = some [curve] ∧
      (curve.length : ℤ) = frameByTime cfg t.2 s - frameByTime cfg t.1 s + 1 := by
  obtain ⟨s1, s2⟩ := schedule
  obtain ⟨c1, c2⟩ := component
  obtain ⟨w1, w2⟩ := windows
  obtain ⟨i1, i2, i3, i4⟩ := inside
  obtain ⟨nb, hnb⟩ : ∃ nb, nb = temperatureNotebook specie := ⟨_, rfl⟩
  have rel : nb.relative = true := by rw [hnb]; rfl
  have wan : nb.wanted = ["T".toList] := by rw [hnb]; rfl
  rw [← hnb] at w1 w2 reader ⊢
  have hin : ∀ x : PyProbe, nb.IsWindow row col x → row < x.r_end → col < x.z_end → InWindow nb row col x := by
    rintro x ⟨-, -, x1, x2, -, -⟩ x3 x4
    unfold InWindow rowIn colIn
    rw [rel]; simp only [if_true]; omega
  have nodot : ∀ x ∈ [p, q], ¬nb.IsDot row col x := by
    have ty : ∀ x : PyProbe, nb.IsWindow row col x → ¬nb.IsDot row col x := fun x hx hd => by
      have := hx.1.symm.trans hd.1
      revert this; decide
    intro x hx
    rcases List.mem_cons.1 hx with rfl | hx
    · exact ty _ w1
    · rw [List.mem_singleton.1 hx]; exact ty _ w2
  have noline : ∀ x : PyProbe, nb.IsWindow row col x → ¬nb.IsLine row col x := by
    rintro x ⟨x1, -⟩ ⟨-, ⟨x2, -⟩ | ⟨x2, -⟩⟩
    · have := x1.symm.trans x2
      revert this; decide
    · have := x1.symm.trans x2
      revert this; decide
  have e0 : ∀ x : PyProbe, x.schedule = s → seriesFrames cfg t x = some (frameByTime cfg t.1 s, frameByTime cfg t.2 s) := by
    intro x hx
    unfold seriesFrames
    rw [hx, if_neg (by rintro (h | h); exacts [step.ne' h, hs.ne' h])]
  rw [one] at e0 reader ⊢
  generalize frameByTime cfg t.1 s = a at *
  generalize hf : cfg.frames_per_file = f at *
  have pr : pyRangeStep a (a + f) f = some [a] := by
    unfold pyRangeStep
    rw [if_neg files.ne', if_pos files, show a + f - a + f - 1 = f - 1 + f * 1 by ring, Int.add_mul_ediv_left _ _ files.ne',
      Int.ediv_eq_zero_of_lt (by omega) (by omega)]
    simp
  have tw : "T".toList ∈ nb.wanted := by rw [wan]; simp
  have fr : ∀ x ∈ cfg.probes, x.schedule = s → nb.IsWindow row col x → x.component = "T".toList →
      rd.frame (nb.path x) (x.r_start, x.z_start, x.r_end, x.z_end) a (a + f) = some ((intRange a (a + f)).map fun n =>
        (intRange x.r_start x.r_end).map fun i => (intRange x.z_start x.z_end).map fun k => D (nb.path x) n i k) := by
    intro x x1 x2 x3 x4
    have := reader x ⟨x1, x2, x3.2.1, x4 ▸ tw⟩ x3.1 0 (by simp)
    simpa using this
  obtain ⟨l, hl, ln⟩ : ∃ l, seriesData nb rd cfg t row col true = some (Function.update (Function.update (fun _ => .list []) "T".toList
      (.list ((intRange a (a + f)).map (windowValue nb D row col p)))) "T".toList (.list l)) ∧ (l.length : ℤ) = f + 1 := by
    unfold seriesData
    rw [probes, no_dots _ _ nodot, Option.bind_some, if_pos ⟨⟨_, tw, rfl⟩, rfl⟩, areas_window (noline p w1) w1, e0 p s1, Option.bind_some, c1, if_pos tw]
    dsimp only
    rw [hf, pr, Option.bind_some, piece_read (fr p (by rw [probes]; simp) s1 w1 c1) w1.2.1 (hin p w1 i1 i2)]
    obtain ⟨v, hv⟩ : ∃ v, v = (intRange a (a + f)).map (windowValue nb D row col p) := ⟨_, rfl⟩
    have lv : v.length = f.toNat := by rw [hv, List.length_map, intRange_length]; congr 1; ring
    obtain ⟨w, hw⟩ : ∃ w, w = (intRange a (a + f)).map (windowValue nb D row col q) := ⟨_, rfl⟩
    have lw : w.length = f.toNat := by rw [hw, List.length_map, intRange_length]; congr 1; ring
    have first : SeriesData.assign (.list []) (a - a) (a - a + f - 1) v = some (.list v) := by
      simp [SeriesData.assign]
    rw [← hv, first, Option.bind_some, seriesPieces, Option.map_some, Option.bind_some, areas_window (noline q w2) w2, e0 q s2, Option.bind_some, c2, if_pos tw]
    dsimp only
    rw [hf, pr, Option.bind_some, piece_read (fr q (by rw [probes]; simp) s2 w2 c2) w2.2.1 (hin q w2 i3 i4), Function.update_self, ← hw]
    refine ⟨w ++ v.drop (f - 1).toNat, ?_, ?_⟩
    · have second : SeriesData.assign (.list v) (a - a) (a - a + f - 1) w = some (.list (w ++ v.drop (f - 1).toNat)) := by
        have p0 : pyIndex v.length (a - a) = 0 := by unfold pyIndex; rw [sub_self]; simp
        have p1 : pyIndex v.length (a - a + f - 1) = (f - 1).toNat := by
          unfold pyIndex; rw [if_neg (by omega), lv]; omega
        unfold SeriesData.assign
        dsimp only
        rw [p0, p1, List.take_zero, List.nil_append, Nat.zero_max]
      rw [second, Option.bind_some, seriesPieces, Option.map_some, Option.bind_some, seriesAreas]
    · rw [List.length_append, List.length_drop, lv, lw]; omega
  obtain ⟨ts, q1, q2, -⟩ := linspace_get (a := t.1) (b := t.2) (n := l.length) (by omega)
  refine ⟨ts.zip l, ?_, ?_⟩
  · unfold seriesCurves
    rw [hl, Option.bind_some, wan]
    show List.mapM _ ["T".toList] = _
    rw [List.mapM_cons, List.mapM_nil]
    unfold seriesCurve
    simp only [List.headD_cons, Function.update_self, SeriesData.values]
    rw [q1, Option.bind_some, if_pos q2]
    rfl
  · rw [List.length_zip, q2, min_self, ln]; ring

/-- Two windows of the temperature of the electrons -/
example (D : List Char → ℤ → ℤ → ℤ → ℝ) : ∃ curve, seriesCurves (temperatureNotebook "electrons".toList) (mapsReader D 10 10)
    (seriesCfg 20 [⟨"frame".toList, "T".toList, 5, 0, 0, 10, 10, "electrons".toList⟩, ⟨"frame".toList, "T".toList, 5, 2, 2, 8, 8, "electrons".toList⟩])
    (0, 100) 3 4 true = some [curve] ∧ curve.length = 21 := by
  obtain ⟨curve, h1, h2⟩ := C114_two_windows_violated "electrons".toList (mapsReader D 10 10)
    (seriesCfg 20 [⟨"frame".toList, "T".toList, 5, 0, 0, 10, 10, "electrons".toList⟩, ⟨"frame".toList, "T".toList, 5, 2, 2, 8, 8, "electrons".toList⟩])
    (0, 100) 3 4 5 D _ _ rfl (by norm_num [seriesCfg]) (by norm_num) ⟨rfl, rfl⟩ ⟨rfl, rfl⟩
    ⟨⟨rfl, Or.inr rfl, by norm_num⟩, ⟨rfl, Or.inr rfl, by norm_num⟩⟩ (by norm_num) (by norm_num [seriesCfg])
    (by rw [seriesCfg_from, seriesCfg_to]; norm_num [seriesCfg]) (mapsReader_pieces D _ _ _ _ _ _ _)
  refine ⟨curve, h1, ?_⟩
  rw [seriesCfg_from, seriesCfg_to] at h2
  omega

/-- **C114 is violated by a probe of the point beside a window**: the array of the probe of one component cannot take the pieces of the window, and the notebook raises, though the
other component is in `ps`. -/
theorem C114_mixed_violated (rd : SeriesReader) (cfg : PyParams) (t : ℝ × ℝ) (row col s nr nz : ℤ) (D : List Char → ℤ → ℤ → ℤ → ℝ)
    (p q : PyProbe) (ps : List PyProbe) (probes : cfg.probes = p :: q :: ps) (step : 0 < cfg.step_interval) (hs : 0 < s) (schedule : p.schedule = s ∧ q.schedule = s)
    (component : p.component = "E_r".toList ∧ q.component = "E_r".toList) (dot : fieldNotebook.IsDot row col p) (window : fieldNotebook.IsWindow row col q)
    (dots : ∀ x ∈ ps, ¬fieldNotebook.IsDot row col x) (inside : row < q.r_end - q.r_start ∧ col < q.z_end - q.z_start ∧ 0 ≤ row ∧ 0 ≤ col)
    (files : 2 ≤ cfg.frames_per_file) (order : frameByTime cfg t.1 s < frameByTime cfg t.2 s)
    (reader : FaithfulReader rd D (fieldNotebook.reads cfg s) fieldNotebook.path (frameByTime cfg t.1 s) (frameByTime cfg t.2 s) nr nz)
    (pieces : FaithfulPieces rd D (fieldNotebook.reads cfg s) fieldNotebook.path cfg.frames_per_file (frameByTime cfg t.1 s)
      (frameByTime cfg t.2 s + cfg.frames_per_file)) :
    seriesCurves fieldNotebook rd cfg t row col true = none := by
  obtain ⟨s1, s2⟩ := schedule
  obtain ⟨c1, c2⟩ := component
  obtain ⟨i1, i2, i3, i4⟩ := inside
  have e0 : ∀ x : PyProbe, x.schedule = s → seriesFrames cfg t x = some (frameByTime cfg t.1 s, frameByTime cfg t.2 s) := by
    intro x hx
    unfold seriesFrames
    rw [hx, if_neg (by rintro (h | h); exacts [step.ne' h, hs.ne' h])]
  have ne : "frame".toList ≠ "dot".toList ∧ "dot".toList ≠ "col".toList ∧ "dot".toList ≠ "row".toList ∧ "frame".toList ≠ "col".toList ∧
    "frame".toList ≠ "row".toList := by decide
  have q0 : ¬fieldNotebook.IsDot row col q := fun h => ne.1 (window.1.symm.trans h.1)
  have p1 : ¬fieldNotebook.IsLine row col p := by
    rintro ⟨-, ⟨h, -⟩ | ⟨h, -⟩⟩
    exacts [ne.2.1 (dot.1.symm.trans h), ne.2.2.1 (dot.1.symm.trans h)]
  have q1 : ¬fieldNotebook.IsLine row col q := by
    rintro ⟨-, ⟨h, -⟩ | ⟨h, -⟩⟩
    exacts [ne.2.2.2.1 (window.1.symm.trans h), ne.2.2.2.2 (window.1.symm.trans h)]
  have p2 : ¬fieldNotebook.IsWindow row col p := fun h => ne.1 (h.1.symm.trans dot.1)
  have rr : "E_r".toList ∈ fieldNotebook.wanted := by simp [fieldNotebook]
  have zz : "E_z".toList ∈ fieldNotebook.wanted := by simp [fieldNotebook]
  have hin : InWindow fieldNotebook row col q := ⟨i3, i1, i4, i2⟩
  have rest : ∀ x ∈ q :: ps, ¬fieldNotebook.IsDot row col x := by
    intro x hx
    rcases List.mem_cons.1 hx with rfl | hx
    exacts [q0, dots x hx]
  have hd := reader.dot p ⟨by rw [probes]; simp, s1, dot.2.1, c1 ▸ rr⟩ dot.1
  rw [dot.2.2.1, dot.2.2.2] at hd
  have fr := pieces q ⟨by rw [probes]; simp, s2, window.2.1, c2 ▸ rr⟩ window.1 0 (by simp; omega)
  simp only [Nat.cast_zero, zero_mul, add_zero] at fr
  unfold seriesCurves seriesData
  rw [probes, dots_hit dot, e0 p s1, Option.bind_some, hd]
  unfold SeriesNotebook.store
  rw [c1, if_pos rr, Option.map_some, Option.bind_some, no_dots _ _ rest, Option.bind_some,
    if_pos ⟨⟨_, zz, by rw [Function.update_of_ne (by decide)]; rfl⟩, rfl⟩, areas_miss p1 p2, areas_window q1 window, e0 q s2, Option.bind_some, c2, if_pos rr,
    Function.update_self]
  dsimp only
  generalize cfg.frames_per_file = f at *
  generalize frameByTime cfg t.1 s = a at *
  generalize frameByTime cfg t.2 s = b at *
  obtain ⟨l, hl⟩ : ∃ l, pyRangeStep a b f = some (a :: l) := by
    unfold pyRangeStep
    have : 1 ≤ (b - a + f - 1) / f := by rw [Int.le_ediv_iff_mul_le (by omega)]; omega
    obtain ⟨m, hm⟩ : ∃ m, ((b - a + f - 1) / f).toNat = m + 1 := ⟨((b - a + f - 1) / f).toNat - 1, by omega⟩
    rw [if_neg (by omega), if_pos (by omega), hm, List.range_succ_eq_map]
    exact ⟨(List.map Nat.succ (List.range m)).map fun (i : ℕ) => a + i * f, by rw [List.map_cons]; simp⟩
  have none' : ∀ v w : List ℝ, w.length = f.toNat → SeriesData.assign (.array v) (a - a) (a - a + f - 1) w = none := by
    intro v w hw
    unfold SeriesData.assign npAssign
    dsimp only
    have : pyIndex v.length (a - a + f - 1) ≤ (f - 1).toNat := by unfold pyIndex; split_ifs <;> omega
    rw [if_neg (by omega)]
    match w, hw with
    | [], hw => simp
    | [x], hw => simp only [List.length_singleton] at hw; omega
    | x :: y :: w, _ => simp
  rw [hl, Option.bind_some, piece_read fr window.2.1 hin, none' _ _ (by rw [List.length_map, intRange_length]; congr 1; ring)]
  rfl

/-- A probe of `E_r` in the point, windows of both components -/
example (D : List Char → ℤ → ℤ → ℤ → ℝ) : seriesCurves fieldNotebook (mapsReader D 10 10)
    (seriesCfg 10 (⟨"dot".toList, "E_r".toList, 5, 3, 4, 0, 0, []⟩ :: windowPair 0 0)) (0, 100) 3 4 true = none :=
  C114_mixed_violated _ _ (0, 100) 3 4 5 10 10 D _ _ _ rfl (by norm_num [seriesCfg]) (by norm_num) ⟨rfl, rfl⟩ ⟨rfl, rfl⟩
    ⟨rfl, Or.inl rfl, rfl, rfl⟩ ⟨rfl, Or.inl rfl, by norm_num⟩ (by simp [SeriesNotebook.IsDot]) (by norm_num) (by norm_num [seriesCfg]) (by rw [seriesCfg_from, seriesCfg_to]; norm_num)
    (mapsReader_faithful D _ _ _ _ _ _) (mapsReader_pieces D _ _ _ _ _ _ _)

end Verif
