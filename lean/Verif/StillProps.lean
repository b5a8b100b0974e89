import Verif.Still
import Verif.TimeSeriesProps

/-!
# Maps and profiles of one time (C116)
-/

namespace Verif

/-! ## Specification -/

/-- The values of `v` in a window, row by row -/
def windowOf (v : ℤ → ℤ → ℝ) (w : ℤ × ℤ × ℤ × ℤ) : List (List ℝ) :=
  (intRange w.1 w.2.2.1).map fun i => (intRange w.2.1 w.2.2.2).map fun k => v i k

/-- The probe saves frames of the data set. -/
def StillItem.SavedBy (it : StillItem) (p : PyProbe) : Prop := p.type = "frame".toList ∧ it.Wants p

/-- A window of the grid with nodes in it -/
def GridWindow (w : ℤ × ℤ × ℤ × ℤ) : Prop := 0 ≤ w.1 ∧ w.1 < w.2.2.1 ∧ 0 ≤ w.2.1 ∧ w.2.1 < w.2.2.2

/-- Times are counted in positive steps, and probes save every so many of them. -/
def Counted (cfg : PyParams) : Prop := 0 < cfg.step_interval ∧ ∀ p ∈ cfg.probes, 0 < p.schedule

/-- The reader gives what was saved: `D r c n i k` is the value of the data set `c` of the simulation `r` in the node `(i, k)` in the frame `n`.  The frames of the time
`t` are there, in the windows of the probes that save the asked window. -/
def FaithfulFrames (rd : ℕ → StillReader) (D : ℕ → List Char → ℤ → ℤ → ℤ → ℝ) (cfg : PyParams) (t : ℝ) (w : ℤ × ℤ × ℤ × ℤ) (items : List StillItem) : Prop :=
  ∀ it ∈ items, ∀ p ∈ cfg.probes, it.SavedBy p → p.Contains w →
    rd it.run it.name p.window (frameByTime cfg t p.schedule) = some (windowOf (D it.run it.name (frameByTime cfg t p.schedule)) p.window)

/-- The number `n` of a frame of the time `t`: of a probe of the data set whose window contains the asked one, and not further from `t` than half the interval between two
frames of that probe. -/
def FrameOf (cfg : PyParams) (t : ℝ) (w : ℤ × ℤ × ℤ × ℤ) (it : StillItem) (n : ℤ) : Prop :=
  ∃ p ∈ cfg.probes, it.SavedBy p ∧ p.Contains w ∧ |t - timeByFrame cfg n p.schedule| ≤ 1 / 2 * (cfg.step_interval * p.schedule)

/-- Every data set is saved by a probe of exactly the asked window. -/
def SavedExactly (cfg : PyParams) (w : ℤ × ℤ × ℤ × ℤ) (items : List StillItem) : Prop :=
  ∀ it ∈ items, ∃ p ∈ cfg.probes, it.SavedBy p ∧ p.window = w

/-- The first data set is not saved by a probe of exactly the window, every data set is by a probe of some window around it, and those that are not the window itself
begin at the corner of the grid. -/
def SavedAround (cfg : PyParams) (w : ℤ × ℤ × ℤ × ℤ) (items : List StillItem) : Prop :=
  (∀ it ∈ items.head?, ∀ p ∈ cfg.probes, it.SavedBy p → p.window ≠ w) ∧ (∀ it ∈ items, it.again = false) ∧
  ∀ it ∈ items, (∃ p ∈ cfg.probes, it.SavedBy p ∧ p.Contains w) ∧
    ∀ p ∈ cfg.probes, it.SavedBy p → p.Contains w → p.window ≠ w → p.r_start = 0 ∧ p.z_start = 0

namespace Still

open TimeSeries

theorem contains_self {p : PyProbe} {w : ℤ × ℤ × ℤ × ℤ} (h : p.window = w) : p.Contains w := by
  subst h
  exact ⟨le_rfl, le_rfl, le_rfl, le_rfl⟩

theorem frame_some {cfg : PyParams} {p : PyProbe} (t : ℝ) (hc : Counted cfg) (hp : p ∈ cfg.probes) :
    stillFrame cfg t p = some (frameByTime cfg t p.schedule) := by
  unfold stillFrame
  rw [if_neg]
  rintro (h | h)
  · exact hc.1.ne' h
  · exact (hc.2 p hp).ne' h

theorem windowOf_length (v : ℤ → ℤ → ℝ) (w : ℤ × ℤ × ℤ × ℤ) : (windowOf v w).length = (w.2.2.1 - w.1).toNat := by
  unfold windowOf
  rw [List.length_map, intRange_length]

theorem slice_range {α : Type} (f : ℤ → α) {a b x y : ℤ} (hx : 0 ≤ x) (hxy : x ≤ y) (hy : a + y ≤ b) :
    pySlice ((intRange a b).map f) x y = (intRange x y).map fun i => f (a + i) := by
  apply List.ext_getElem?
  intro k
  have e : ((intRange x y).map fun i => f (a + i))[k]? = if k < (y - x).toNat then some (f (a + (x + k))) else none := getElem_range (fun i => f (a + i)) x y k
  rw [e]
  have l : ((intRange a b).map f).length = (b - a).toNat := by rw [List.length_map, intRange_length]
  have i1 : pyIndex (b - a).toNat x = x.toNat := by unfold pyIndex; rw [if_neg (by omega)]; omega
  have i2 : pyIndex (b - a).toNat y = y.toNat := by unfold pyIndex; rw [if_neg (by omega)]; omega
  unfold pySlice
  rw [l, i1, i2, List.getElem?_take, List.getElem?_drop, getElem_range]
  by_cases h : k < y.toNat - x.toNat
  · rw [if_pos h, if_pos (by omega), if_pos (by omega)]
    congr 2
    push_cast
    omega
  · rw [if_neg h, if_neg (by omega)]

theorem crop_window (v : ℤ → ℤ → ℝ) {a b c d : ℤ} {w : ℤ × ℤ × ℤ × ℤ} (hw : GridWindow w) (h1 : a + w.2.2.1 ≤ c) (h2 : b + w.2.2.2 ≤ d) :
    npCrop w (windowOf v (a, b, c, d)) = windowOf (fun i k => v (a + i) (b + k)) w := by
  obtain ⟨w1, w2, w3, w4⟩ := hw
  unfold npCrop windowOf
  rw [slice_range _ w1 w2.le h1, List.map_map]
  apply List.map_congr_left
  intro i _
  exact slice_range _ w3 w4.le h2

variable {α : Type} {rd : ℕ → StillReader} {D : ℕ → List Char → ℤ → ℤ → ℤ → ℝ} {cfg : PyParams} {t : ℝ} {w : ℤ × ℤ × ℤ × ℤ} {items : List StillItem}
  {pick : List (List ℝ) → Option (List α)} {val : (ℤ → ℤ → ℝ) → List α} {it : StillItem}

/-- The first loop -/
theorem exact_loop (hc : Counted cfg) (hr : FaithfulFrames rd D cfg t w items) (hit : it ∈ items) (hpick : ∀ v, pick (windowOf v w) = some (val v)) :
    ∀ (ps : List PyProbe) (d : List α), (∀ p ∈ ps, p ∈ cfg.probes) →
      ∃ d', stillExact rd cfg t w pick it ps d = some d' ∧
        ((d' = d ∧ ∀ p ∈ ps, it.SavedBy p → p.window ≠ w) ∨
          ∃ p ∈ ps, it.SavedBy p ∧ p.window = w ∧ d' = val (D it.run it.name (frameByTime cfg t p.schedule))) := by
  intro ps
  induction ps with
  | nil =>
    intro d _
    exact ⟨d, rfl, Or.inl ⟨rfl, by simp⟩⟩
  | cons p ps ih =>
    intro d hps
    have hp := hps p (by simp)
    have hps' : ∀ q ∈ ps, q ∈ cfg.probes := fun q hq => hps q (by simp [hq])
    rw [stillExact, frame_some t hc hp, Option.bind_some]
    by_cases h : p.type = "frame".toList ∧ p.window = w ∧ it.Wants p
    · obtain ⟨h1, h2, h3⟩ := h
      have r := hr it hit p hp ⟨h1, h3⟩ (contains_self h2)
      rw [h2] at r
      rw [if_pos ⟨h1, h2, h3⟩, r, Option.bind_some, hpick, Option.bind_some]
      obtain ⟨d', e, k⟩ := ih (val (D it.run it.name (frameByTime cfg t p.schedule))) hps'
      refine ⟨d', e, Or.inr ?_⟩
      rcases k with ⟨k, -⟩ | ⟨q, q1, q2⟩
      · exact ⟨p, by simp, ⟨h1, h3⟩, h2, k⟩
      · exact ⟨q, by simp [q1], q2⟩
    · rw [if_neg h]
      obtain ⟨d', e, k⟩ := ih d hps'
      refine ⟨d', e, ?_⟩
      rcases k with ⟨k1, k2⟩ | ⟨q, q1, q2⟩
      · refine Or.inl ⟨k1, ?_⟩
        intro q hq s
        rcases List.mem_cons.1 hq with rfl | hq
        · exact fun e => h ⟨s.1, e, s.2⟩
        · exact k2 q hq s
      · exact Or.inr ⟨q, by simp [q1], q2⟩

/-- The second loop does not touch what is there. -/
theorem bigger_kept (hc : Counted cfg) (again : it.again = false) : ∀ (ps : List PyProbe) (d : List α), (∀ p ∈ ps, p ∈ cfg.probes) → d.length ≠ 0 →
    stillBigger rd cfg t w pick it ps d = some d := by
  intro ps
  induction ps with
  | nil => intro d _ _; rfl
  | cons p ps ih =>
    intro d hps hd
    rw [stillBigger, frame_some t hc (hps p (by simp)), Option.bind_some, again]
    simp only [Bool.false_eq_true, if_false, if_neg hd, ih d (fun q hq => hps q (by simp [hq])) hd, ite_self]

/-- The second loop: the first probe around the window -/
theorem bigger_loop (hc : Counted cfg) (hr : FaithfulFrames rd D cfg t w items) (hit : it ∈ items) (hpick : ∀ v, pick (windowOf v w) = some (val v))
    (hval : ∀ v, (val v).length ≠ 0) (hw : GridWindow w) (again : it.again = false)
    (fits : ∀ p ∈ cfg.probes, it.SavedBy p → p.Contains w → p.r_start + w.2.2.1 ≤ p.r_end ∧ p.z_start + w.2.2.2 ≤ p.z_end) :
    ∀ ps : List PyProbe, (∀ p ∈ ps, p ∈ cfg.probes) →
      ∃ d', stillBigger rd cfg t w pick it ps [] = some d' ∧
        ((d' = [] ∧ ∀ p ∈ ps, it.SavedBy p → ¬p.Contains w) ∨
          ∃ p ∈ ps, it.SavedBy p ∧ p.Contains w ∧
            d' = val fun i k => D it.run it.name (frameByTime cfg t p.schedule) (p.r_start + i) (p.z_start + k)) := by
  intro ps
  induction ps with
  | nil =>
    intro _
    exact ⟨[], rfl, Or.inl ⟨rfl, by simp⟩⟩
  | cons p ps ih =>
    intro hps
    have hp := hps p (by simp)
    have hps' : ∀ q ∈ ps, q ∈ cfg.probes := fun q hq => hps q (by simp [hq])
    rw [stillBigger, frame_some t hc hp, Option.bind_some]
    by_cases h : p.type = "frame".toList ∧ p.Contains w ∧ it.Wants p
    · obtain ⟨h1, h2, h3⟩ := h
      obtain ⟨f1, f2⟩ := fits p hp ⟨h1, h3⟩ h2
      rw [if_pos ⟨h1, h2, h3⟩, again, if_neg (by simp), if_pos List.length_nil, hr it hit p hp ⟨h1, h3⟩ h2, Option.bind_some]
      unfold PyProbe.window
      rw [crop_window _ hw f1 f2, hpick, Option.bind_some, bigger_kept hc again ps _ hps' (hval _)]
      exact ⟨_, rfl, Or.inr ⟨p, by simp, ⟨h1, h3⟩, h2, rfl⟩⟩
    · rw [if_neg h]
      obtain ⟨d', e, k⟩ := ih hps'
      refine ⟨d', e, ?_⟩
      rcases k with ⟨k1, k2⟩ | ⟨q, q1, q2⟩
      · refine Or.inl ⟨k1, ?_⟩
        intro q hq s
        rcases List.mem_cons.1 hq with rfl | hq
        · exact fun e => h ⟨s.1, e, s.2⟩
        · exact k2 q hq s
      · exact Or.inr ⟨q, by simp [q1], q2⟩

theorem mapM_some {β γ : Type} {f : β → Option γ} {P : β → γ → Prop} : ∀ {l : List β}, (∀ x ∈ l, ∃ y, f x = some y ∧ P x y) →
    ∃ ys, l.mapM f = some ys ∧ List.Forall₂ P l ys := by
  intro l
  induction l with
  | nil => intro _; exact ⟨[], rfl, .nil⟩
  | cons x l ih =>
    intro h
    obtain ⟨y, y1, y2⟩ := h x (by simp)
    obtain ⟨ys, z1, z2⟩ := ih fun z hz => h z (by simp [hz])
    refine ⟨y :: ys, ?_, .cons y2 z2⟩
    rw [List.mapM_cons, y1]
    show (List.mapM f l).bind (fun ys => some (y :: ys)) = _
    rw [z1]
    rfl

theorem mapM_zip {β γ δ : Type} {f : β × γ → Option δ} {P : β → γ → Prop} {Q : β → δ → Prop} {l : List β} {ys : List γ} (h : List.Forall₂ P l ys)
    (hf : ∀ x ∈ l, ∀ y, P x y → ∃ z, f (x, y) = some z ∧ Q x z) : ∃ zs, (l.zip ys).mapM f = some zs ∧ List.Forall₂ Q l zs := by
  induction h with
  | nil => exact ⟨[], rfl, .nil⟩
  | @cons x y l ys hxy _ ih =>
    obtain ⟨z, z1, z2⟩ := hf x (by simp) y hxy
    obtain ⟨zs, w1, w2⟩ := ih fun a ha b hb => hf a (by simp [ha]) b hb
    refine ⟨z :: zs, ?_, .cons z2 w2⟩
    rw [List.zip_cons_cons, List.mapM_cons, z1]
    show (List.mapM f (l.zip ys)).bind (fun ys => some (z :: ys)) = _
    rw [w1]
    rfl

theorem frameOf_near (hc : Counted cfg) {p : PyProbe} (hp : p ∈ cfg.probes) (h1 : it.SavedBy p) (h2 : p.Contains w) :
    FrameOf cfg t w it (frameByTime cfg t p.schedule) :=
  ⟨p, hp, h1, h2, frame_near hc.1 (hc.2 p hp) t⟩

/-- The data sets when all are saved exactly -/
theorem data_exact (hc : Counted cfg) (hr : FaithfulFrames rd D cfg t w items) (hpick : ∀ v, pick (windowOf v w) = some (val v))
    (hval : ∀ v, (val v).length ≠ 0) (saved : SavedExactly cfg w items) (autoselect : Bool) :
    ∃ ds, stillData rd cfg t w pick autoselect items = some ds ∧
      List.Forall₂ (fun it d => ∃ n, FrameOf cfg t w it n ∧ d = val (D it.run it.name n)) items ds := by
  obtain ⟨ds, e, h⟩ := mapM_some (f := fun it => stillExact rd cfg t w pick it cfg.probes [])
    (P := fun it d => ∃ n, FrameOf cfg t w it n ∧ d = val (D it.run it.name n)) (l := items) (by
    intro it hit
    obtain ⟨d', e, k⟩ := exact_loop hc hr hit hpick cfg.probes [] fun _ h => h
    refine ⟨d', e, ?_⟩
    rcases k with ⟨-, k⟩ | ⟨p, p1, p2, p3, p4⟩
    · obtain ⟨p, p1, p2, p3⟩ := saved it hit
      exact absurd p3 (k p p1 p2)
    · exact ⟨_, frameOf_near hc p1 p2 (contains_self p3), p4⟩)
  refine ⟨ds, ?_, h⟩
  unfold stillData
  rw [e, Option.bind_some]
  cases h with
  | nil => simp
  | cons a _ =>
    obtain ⟨n, -, hn⟩ := a
    rw [if_neg]
    rw [List.headD_cons, hn]
    exact fun x => hval _ x.1

/-- The data sets when the first is not saved exactly -/
theorem data_around (hc : Counted cfg) (hr : FaithfulFrames rd D cfg t w items) (hpick : ∀ v, pick (windowOf v w) = some (val v))
    (hval : ∀ v, (val v).length ≠ 0) (hw : GridWindow w) (first : ∀ it ∈ items.head?, ∀ p ∈ cfg.probes, it.SavedBy p → p.window ≠ w)
    (again : ∀ it ∈ items, it.again = false) (around : ∀ it ∈ items, ∃ p ∈ cfg.probes, it.SavedBy p ∧ p.Contains w)
    (fits : ∀ it ∈ items, ∀ p ∈ cfg.probes, it.SavedBy p → p.Contains w → p.window ≠ w → p.r_start + w.2.2.1 ≤ p.r_end ∧ p.z_start + w.2.2.2 ≤ p.z_end) :
    ∃ ds, stillData rd cfg t w pick true items = some ds ∧
      List.Forall₂ (fun it d => (∃ p ∈ cfg.probes, it.SavedBy p ∧ p.window = w ∧ d = val (D it.run it.name (frameByTime cfg t p.schedule))) ∨
        ∃ p ∈ cfg.probes, it.SavedBy p ∧ p.Contains w ∧ p.window ≠ w ∧
          d = val fun i k => D it.run it.name (frameByTime cfg t p.schedule) (p.r_start + i) (p.z_start + k)) items ds := by
  obtain ⟨ds, e, h⟩ := mapM_some (f := fun it => stillExact rd cfg t w pick it cfg.probes []) (P := fun it d => it ∈ items ∧
      ((d = [] ∧ ∀ p ∈ cfg.probes, it.SavedBy p → p.window ≠ w) ∨
          ∃ p ∈ cfg.probes, it.SavedBy p ∧ p.window = w ∧ d = val (D it.run it.name (frameByTime cfg t p.schedule)))) (l := items) (by
    intro it hit
    obtain ⟨d', e, k⟩ := exact_loop hc hr hit hpick cfg.probes [] fun _ h => h
    exact ⟨d', e, hit, k⟩)
  have h0 : (ds.headD []).length = 0 := by
    cases h with
    | nil => rfl
    | cons a _ =>
      rcases a.2 with ⟨rfl, -⟩ | ⟨p, p1, p2, p3, -⟩
      · rfl
      · exact absurd p3 (first _ (by simp) p p1 p2)
  unfold stillData
  rw [e, Option.bind_some, if_pos ⟨h0, rfl⟩]
  refine mapM_zip h ?_
  rintro it hit d ⟨-, k⟩
  rcases k with ⟨rfl, k⟩ | ⟨p, p1, p2, p3, rfl⟩
  · obtain ⟨d', e', k'⟩ := bigger_loop hc hr hit hpick hval hw (again it hit)
      (fun p hp s c => fits it hit p hp s c (k p hp s)) cfg.probes fun _ h => h
    refine ⟨d', e', Or.inr ?_⟩
    rcases k' with ⟨-, k'⟩ | ⟨p, p1, p2, p3, p4⟩
    · obtain ⟨p, p1, p2, p3⟩ := around it hit
      exact absurd p3 (k' p p1 p2)
    · exact ⟨p, p1, p2, p3, k p p1 p2, p4⟩
  · exact ⟨_, bigger_kept hc (again it hit) cfg.probes _ (fun _ h => h) (hval _), Or.inl ⟨p, p1, p2, p3, rfl⟩⟩

theorem data_all (hc : Counted cfg) (hr : FaithfulFrames rd D cfg t w items) (hpick : ∀ v, pick (windowOf v w) = some (val v))
    (hval : ∀ v, (val v).length ≠ 0) (hw : GridWindow w) (autoselect : Bool) (saved : SavedExactly cfg w items ∨ autoselect = true ∧ SavedAround cfg w items) :
    ∃ ds, stillData rd cfg t w pick autoselect items = some ds ∧
      List.Forall₂ (fun it d => ∃ n, FrameOf cfg t w it n ∧ d = val (D it.run it.name n)) items ds := by
  rcases saved with saved | ⟨rfl, first, again, around⟩
  · exact data_exact hc hr hpick hval saved autoselect
  · obtain ⟨ds, e, h⟩ := data_around hc hr hpick hval hw first again (fun it hit => (around it hit).1) (by
      intro it hit p hp s c ne
      obtain ⟨z1, z2⟩ := (around it hit).2 p hp s c ne
      obtain ⟨-, -, c3, c4⟩ := c
      omega)
    refine ⟨ds, e, ?_⟩
    have h' : List.Forall₂ (fun it d => it ∈ items ∧ ((∃ p ∈ cfg.probes, it.SavedBy p ∧ p.window = w ∧ d = val (D it.run it.name (frameByTime cfg t p.schedule))) ∨
        ∃ p ∈ cfg.probes, it.SavedBy p ∧ p.Contains w ∧ p.window ≠ w ∧
          d = val fun i k => D it.run it.name (frameByTime cfg t p.schedule) (p.r_start + i) (p.z_start + k))) items ds :=
      (List.forall₂_and_left (p := fun it => it ∈ items) items ds).2 ⟨fun _ h => h, h⟩
    refine h'.imp ?_
    rintro it d ⟨hit, ⟨p, p1, p2, p3, p4⟩ | ⟨p, p1, p2, p3, p4, p5⟩⟩
    · exact ⟨_, frameOf_near hc p1 p2 (contains_self p3), p4⟩
    · obtain ⟨z1, z2⟩ := (around it hit).2 p p1 p2 p3 p4
      refine ⟨_, frameOf_near hc p1 p2 p3, p5.trans ?_⟩
      simp only [z1, z2, zero_add]

theorem forall₂_get {β γ : Type} {P : β → γ → Prop} {l : List β} {ys : List γ} (h : List.Forall₂ P l ys) :
    l.length = ys.length ∧ ∀ (i : ℕ) x y, l[i]? = some x → ys[i]? = some y → P x y := by
  refine ⟨h.length_eq, ?_⟩
  induction h with
  | nil => intro i x y h; simp at h
  | cons a _ ih =>
    intro i x y h1 h2
    cases i with
    | zero =>
      simp only [List.getElem?_cons_zero, Option.some.injEq] at h1 h2
      subst h1 h2
      exact a
    | succ i =>
      simp only [List.getElem?_cons_succ] at h1 h2
      exact ih i x y h1 h2

theorem draw_all {ds : List (List (List ℝ))} {P : StillItem → List (List ℝ) → Prop} (h : List.Forall₂ P items ds) (hP : ∀ it d, P it d → d.length ≠ 0) :
    (ds.mapM fun d => if d.length = 0 then none else some d) = some ds := by
  induction h with
  | nil => rfl
  | cons a _ ih =>
    rw [List.mapM_cons, if_neg (hP _ _ a)]
    simp only [Option.pure_def, Option.bind_eq_bind, Option.bind_some] at ih ⊢
    rw [ih, Option.bind_some]

theorem window_rows (hw : GridWindow w) (v : ℤ → ℤ → ℝ) : (windowOf v w).length ≠ 0 := by
  rw [windowOf_length]
  have := hw.2.1
  omega

end Still

open Still TimeSeries

/-- **C116**, maps: if every data set was saved by a probe of exactly the asked window, or (with `autoselect`) the first was not and all were saved by probes of windows around it that
begin at the corner of the grid, then every image shows the values of its data set in the asked window, row by row, in the frame of the asked time.

The full statement is without these conditions on the probes (violated, see below), for HDF5 results too (violated, `C116_hdf5_violated`). -/
theorem C116_map_partial (rd : ℕ → StillReader) (D : ℕ → List Char → ℤ → ℤ → ℤ → ℝ) (cfg : PyParams) (t : ℝ) (w : ℤ × ℤ × ℤ × ℤ) (autoselect : Bool)
    (items : List StillItem) (window : GridWindow w) (counted : Counted cfg) (reader : FaithfulFrames rd D cfg t w items)
    (saved : SavedExactly cfg w items ∨ autoselect = true ∧ SavedAround cfg w items) :
    ∃ images, stillMaps rd cfg t w autoselect items = some images ∧ items.length = images.length ∧
      ∀ (i : ℕ) it image, items[i]? = some it → images[i]? = some image → ∃ n, FrameOf cfg t w it n ∧ image = windowOf (D it.run it.name n) w := by
  obtain ⟨ds, e, h⟩ := data_all (pick := some) (val := fun v => windowOf v w) counted reader (fun _ => rfl) (window_rows window) window autoselect saved
  refine ⟨ds, ?_, forall₂_get h⟩
  unfold stillMaps
  rw [e, Option.bind_some]
  refine draw_all h ?_
  rintro it d ⟨n, -, rfl⟩
  exact window_rows window _

namespace Still

open TimeSeries

/-- A reader for examples -/
def allFrames (D : ℕ → List Char → ℤ → ℤ → ℤ → ℝ) (r : ℕ) : StillReader := fun c w n => some (windowOf (D r c n) w)

/-- Frames of the density and of the temperature of the whole grid, every five steps -/
def wholeProbes : List PyProbe := [⟨"dot".toList, "E_r".toList, 5, 3, 4, 0, 0, []⟩, ⟨"frame".toList, "density".toList, 5, 0, 0, 10, 10, "electrons".toList⟩,
  ⟨"frame".toList, "T".toList, 5, 0, 0, 10, 10, "electrons".toList⟩]

theorem whole_counted : Counted (seriesCfg 1 wholeProbes) := by
  refine ⟨by norm_num [seriesCfg], ?_⟩
  simp [seriesCfg, wholeProbes]

theorem allFrames_faithful (D : ℕ → List Char → ℤ → ℤ → ℤ → ℝ) (cfg : PyParams) (t : ℝ) (w : ℤ × ℤ × ℤ × ℤ) (items : List StillItem) :
    FaithfulFrames (allFrames D) D cfg t w items := fun _ _ _ _ _ _ => rfl

end Still

/-- The density in a part of the grid, cut from frames of the whole grid -/
example (D : ℕ → List Char → ℤ → ℤ → ℤ → ℝ) : ∃ images, stillMaps (allFrames D) (seriesCfg 1 wholeProbes) 100 (2, 3, 6, 8) true (densityItems "electrons".toList) = some images ∧
    (densityItems "electrons".toList).length = images.length ∧ ∀ (i : ℕ) it image, (densityItems "electrons".toList)[i]? = some it → images[i]? = some image →
      ∃ n, FrameOf (seriesCfg 1 wholeProbes) 100 (2, 3, 6, 8) it n ∧ image = windowOf (D it.run it.name n) (2, 3, 6, 8) := by
  refine C116_map_partial _ D _ 100 _ true _ (by norm_num [GridWindow]) whole_counted (allFrames_faithful D _ _ _ _) (Or.inr ⟨rfl, ?_, ?_, ?_⟩)
  · simp [densityItems, seriesCfg, wholeProbes, PyProbe.window]
  · simp [densityItems]
  · simp [densityItems, seriesCfg, wholeProbes, PyProbe.window, StillItem.SavedBy, StillItem.Wants, PyProbe.Contains]

/-- **C116 is violated by windows that do not begin at the corner of the grid**: if the probes around the asked window begin at `(r0, z0)`, the images show another window, as far from that
corner as the asked one is from the corner of the grid. -/
theorem C116_corner_violated (rd : ℕ → StillReader) (D : ℕ → List Char → ℤ → ℤ → ℤ → ℝ) (cfg : PyParams) (t : ℝ) (w : ℤ × ℤ × ℤ × ℤ) (items : List StillItem) (r0 z0 : ℤ)
    (window : GridWindow w) (counted : Counted cfg) (reader : FaithfulFrames rd D cfg t w items) (again : ∀ it ∈ items, it.again = false)
    (none : ∀ it ∈ items, ∀ p ∈ cfg.probes, it.SavedBy p → p.window ≠ w) (around : ∀ it ∈ items, ∃ p ∈ cfg.probes, it.SavedBy p ∧ p.Contains w)
    (corner : ∀ it ∈ items, ∀ p ∈ cfg.probes, it.SavedBy p → p.Contains w →
      p.r_start = r0 ∧ p.z_start = z0 ∧ r0 + w.2.2.1 ≤ p.r_end ∧ z0 + w.2.2.2 ≤ p.z_end) :
    ∃ images, stillMaps rd cfg t w true items = some images ∧ items.length = images.length ∧
      ∀ (i : ℕ) it image, items[i]? = some it → images[i]? = some image →
        ∃ n, FrameOf cfg t w it n ∧ image = windowOf (fun i k => D it.run it.name n (r0 + i) (z0 + k)) w := by
  obtain ⟨ds, e, h⟩ := data_around (pick := some) (val := fun v => windowOf v w) counted reader (fun _ => rfl) (window_rows window) window
    (fun it hit => none it (List.mem_of_mem_head? hit)) again around (by
      intro it hit p hp s c _
      obtain ⟨k1, k2, k3, k4⟩ := corner it hit p hp s c
      omega)
  have h' := (List.forall₂_and_left (p := fun it => it ∈ items) items ds).2 ⟨fun _ h => h, h⟩
  have h2 : List.Forall₂ (fun it d => ∃ n, FrameOf cfg t w it n ∧ d = windowOf (fun i k => D it.run it.name n (r0 + i) (z0 + k)) w) items ds := by
    refine h'.imp ?_
    rintro it d ⟨hit, ⟨p, p1, p2, p3, -⟩ | ⟨p, p1, p2, p3, -, p5⟩⟩
    · exact absurd p3 (none it hit p p1 p2)
    · obtain ⟨k1, k2, -, -⟩ := corner it hit p p1 p2 p3
      refine ⟨_, frameOf_near counted p1 p2 p3, p5.trans ?_⟩
      rw [k1, k2]
  refine ⟨ds, ?_, forall₂_get h2⟩
  unfold stillMaps
  rw [e, Option.bind_some]
  refine draw_all h2 ?_
  rintro it d ⟨n, -, rfl⟩
  exact window_rows window _

/-- Frames of the nodes from `(1, 2)` on, and the asked nodes from `(2, 3)` on -/
example (D : ℕ → List Char → ℤ → ℤ → ℤ → ℝ) :
    ∃ images, stillMaps (allFrames D) (seriesCfg 1 [⟨"frame".toList, "density".toList, 5, 1, 2, 10, 10, "electrons".toList⟩]) 100 (2, 3, 6, 8) true
        (densityItems "electrons".toList) = some images ∧ (densityItems "electrons".toList).length = images.length ∧
      ∀ (i : ℕ) it image, (densityItems "electrons".toList)[i]? = some it → images[i]? = some image →
        ∃ n, FrameOf (seriesCfg 1 [⟨"frame".toList, "density".toList, 5, 1, 2, 10, 10, "electrons".toList⟩]) 100 (2, 3, 6, 8) it n ∧
          image = windowOf (fun i k => D it.run it.name n (1 + i) (2 + k)) (2, 3, 6, 8) := by
  refine C116_corner_violated _ D _ 100 _ _ 1 2 (by norm_num [GridWindow]) ⟨by norm_num [seriesCfg], by simp [seriesCfg]⟩ (allFrames_faithful D _ _ _ _) ?_ ?_ ?_ ?_
  · simp [densityItems]
  · simp [densityItems, seriesCfg, PyProbe.window]
  · simp [densityItems, seriesCfg, StillItem.SavedBy, StillItem.Wants, PyProbe.Contains]
  · simp [densityItems, seriesCfg]

namespace Still

theorem mapM_none {β γ : Type} {f : β → Option γ} : ∀ {l : List β} {x : β}, x ∈ l → f x = none → l.mapM f = none := by
  intro l
  induction l with
  | nil => intro x h; simp at h
  | cons y l ih =>
    intro x hx hf
    rw [List.mapM_cons]
    rcases List.mem_cons.1 hx with rfl | hx
    · rw [hf]; rfl
    · rw [ih hx hf]
      cases f y <;> rfl

variable {α : Type} {rd : ℕ → StillReader} {D : ℕ → List Char → ℤ → ℤ → ℤ → ℝ} {cfg : PyParams} {t : ℝ} {w : ℤ × ℤ × ℤ × ℤ} {items : List StillItem}
  {pick : List (List ℝ) → Option (List α)} {it : StillItem}

theorem exact_skips (hc : Counted cfg) : ∀ (ps : List PyProbe) (d : List α), (∀ p ∈ ps, p ∈ cfg.probes) → (∀ p ∈ ps, it.SavedBy p → p.window ≠ w) →
    stillExact rd cfg t w pick it ps d = some d := by
  intro ps
  induction ps with
  | nil => intro d _ _; rfl
  | cons p ps ih =>
    intro d hps h
    rw [stillExact, frame_some t hc (hps p (by simp)), Option.bind_some, if_neg (fun x => h p (by simp) ⟨x.1, x.2.2⟩ x.2.1),
      ih d (fun q hq => hps q (by simp [hq])) fun q hq => h q (by simp [hq])]

theorem exact_none (hc : Counted cfg) : ∀ (ps : List PyProbe) (d : List α), (∀ p ∈ ps, p ∈ cfg.probes) →
    (∃ p ∈ ps, it.SavedBy p ∧ p.window = w ∧ (rd it.run it.name w (frameByTime cfg t p.schedule)).bind pick = none) →
    stillExact rd cfg t w pick it ps d = none := by
  intro ps
  induction ps with
  | nil => rintro d _ ⟨p, hp, -⟩; simp at hp
  | cons q ps ih =>
    rintro d hps ⟨p, hp, s, e, k⟩
    rw [stillExact, frame_some t hc (hps q (by simp)), Option.bind_some]
    have hps' : ∀ x ∈ ps, x ∈ cfg.probes := fun x hx => hps x (by simp [hx])
    rcases List.mem_cons.1 hp with rfl | hp
    · rw [if_pos ⟨s.1, e, s.2⟩, k, Option.bind_none]
    · have r := fun d => ih d hps' ⟨p, hp, s, e, k⟩
      split_ifs
      · cases (rd it.run it.name w (frameByTime cfg t q.schedule)).bind pick with
        | none => rfl
        | some d => exact r d
      · exact r d

theorem bigger_none (hc : Counted cfg) : ∀ (ps : List PyProbe) (d : List α), (∀ p ∈ ps, p ∈ cfg.probes) →
    (it.again = true ∨ d = []) → (∀ n, rd it.run it.name w n = none) → (it.again = false → ∀ u n, rd it.run it.name u n = none) →
    (∃ p ∈ ps, it.SavedBy p ∧ p.Contains w) → stillBigger rd cfg t w pick it ps d = none := by
  intro ps
  induction ps with
  | nil => rintro d _ _ _ _ ⟨p, hp, -⟩; simp at hp
  | cons q ps ih =>
    rintro d hps hd h1 h2 ⟨p, hp, s, e⟩
    rw [stillBigger, frame_some t hc (hps q (by simp)), Option.bind_some]
    have hps' : ∀ x ∈ ps, x ∈ cfg.probes := fun x hx => hps x (by simp [hx])
    by_cases hq : q.type = "frame".toList ∧ q.Contains w ∧ it.Wants q
    · rw [if_pos hq]
      by_cases ha : it.again = true
      · rw [if_pos ha, h1, Option.bind_none, Option.bind_none]
      · have hd' : d = [] := hd.resolve_left ha
        rw [if_neg ha, if_pos (by rw [hd', List.length_nil]), h2 (by simpa using ha), Option.bind_none, Option.bind_none]
    · rw [if_neg hq]
      rcases List.mem_cons.1 hp with rfl | hp
      · exact absurd ⟨s.1, e, s.2⟩ hq
      · exact ih d hps' hd h1 h2 ⟨p, hp, s, e⟩

theorem mapM_mem {β γ : Type} {f : β → Option γ} : ∀ {l : List β} {ys : List γ} {x : β}, l.mapM f = some ys → x ∈ l → ∃ y, f x = some y ∧ (x, y) ∈ l.zip ys := by
  intro l
  induction l with
  | nil => intro ys x _ h; simp at h
  | cons a l ih =>
    intro ys x h hx
    rw [List.mapM_cons] at h
    cases ha : f a with
    | none => rw [ha] at h; cases h
    | some b =>
      rw [ha] at h
      cases hl : l.mapM f with
      | none => rw [hl] at h; cases h
      | some bs =>
        rw [hl] at h
        obtain rfl : b :: bs = ys := Option.some.inj h
        rcases List.mem_cons.1 hx with rfl | hx
        · exact ⟨b, ha, by simp⟩
        · obtain ⟨y, y1, y2⟩ := ih hl hx
          exact ⟨y, y1, by simp [y2]⟩

theorem mapM_head {β γ : Type} {f : β → Option γ} {x : β} {l : List β} {ys : List γ} {y : γ} (h : (x :: l).mapM f = some ys) (hx : f x = some y) (d : γ) :
    ys.headD d = y := by
  rw [List.mapM_cons, hx] at h
  cases hl : l.mapM f with
  | none => rw [hl] at h; cases h
  | some bs =>
    rw [hl] at h
    obtain rfl : y :: bs = ys := Option.some.inj h
    rfl

end Still

/-- **C116 is violated by probes of different windows**: if the first data set was saved in exactly the asked window, the others are looked for in no other window, and drawing raises if one
of them was saved in bigger ones only. -/
theorem C116_hidden_violated (rd : ℕ → StillReader) (D : ℕ → List Char → ℤ → ℤ → ℤ → ℝ) (cfg : PyParams) (t : ℝ) (w : ℤ × ℤ × ℤ × ℤ) (autoselect : Bool)
    (first it : StillItem) (items : List StillItem) (window : GridWindow w) (counted : Counted cfg) (reader : FaithfulFrames rd D cfg t w (first :: items))
    (saved : ∃ p ∈ cfg.probes, first.SavedBy p ∧ p.window = w) (other : it ∈ items) (bigger : ∀ p ∈ cfg.probes, it.SavedBy p → p.window ≠ w) :
    stillMaps rd cfg t w autoselect (first :: items) = none := by
  unfold stillMaps stillData
  cases e : (first :: items).mapM fun it => stillExact rd cfg t w some it cfg.probes [] with
  | none => rfl
  | some ds =>
    obtain ⟨d', e', k⟩ := exact_loop (pick := some) (val := fun v => windowOf v w) counted reader (List.mem_cons_self) (fun _ => rfl) cfg.probes [] fun _ h => h
    have hd : (ds.headD []).length ≠ 0 := by
      rw [mapM_head e e' []]
      rcases k with ⟨-, k⟩ | ⟨p, -, -, -, rfl⟩
      · obtain ⟨p, p1, p2, p3⟩ := saved
        exact absurd p3 (k p p1 p2)
      · exact window_rows window _
    rw [Option.bind_some, if_neg (fun x => hd x.1), Option.bind_some]
    obtain ⟨y, y1, y2⟩ := mapM_mem e (List.mem_cons_of_mem first other)
    rw [exact_skips counted cfg.probes [] (fun _ h => h) bigger] at y1
    obtain rfl : [] = y := Option.some.inj y1
    exact mapM_none (List.of_mem_zip y2).2 (if_pos List.length_nil)

/-- The radial field saved in the asked window, the axial one in the whole grid -/
example (D : ℕ → List Char → ℤ → ℤ → ℤ → ℝ) : stillMaps (allFrames D)
    (seriesCfg 1 [⟨"frame".toList, "E_r".toList, 5, 2, 3, 6, 8, []⟩, ⟨"frame".toList, "E_z".toList, 5, 0, 0, 10, 10, []⟩]) 100 (2, 3, 6, 8) true fieldItems = none := by
  refine C116_hidden_violated _ D _ 100 _ true ⟨"E_r".toList, none, false, 0⟩ ⟨"E_z".toList, none, false, 0⟩ _ (by norm_num [GridWindow])
    ⟨by norm_num [seriesCfg], by simp [seriesCfg]⟩ (allFrames_faithful D _ _ _ _) ?_ (by simp) ?_
  · simp [seriesCfg, StillItem.SavedBy, StillItem.Wants, PyProbe.window]
  · simp [seriesCfg, StillItem.SavedBy, StillItem.Wants, PyProbe.window]

/-- **C116 is violated by the map of four data sets**: temperature and density that were saved in bigger windows only are read as if they had been saved in the asked window, of which there is
no file, and the notebook raises. -/
theorem C116_again_violated (rd : ℕ → StillReader) (cfg : PyParams) (t : ℝ) (w : ℤ × ℤ × ℤ × ℤ) (specie : List Char) (it : StillItem) (counted : Counted cfg)
    (other : it ∈ fourItems specie) (again : it.again = true) (first : ∀ p ∈ cfg.probes, p.type = "frame".toList → p.component = "E_r".toList → p.window ≠ w)
    (saved : ∃ p ∈ cfg.probes, it.SavedBy p ∧ p.Contains w) (files : ∀ n, rd it.run it.name w n = none) :
    stillMaps rd cfg t w true (fourItems specie) = none := by
  unfold stillMaps stillData
  cases e : (fourItems specie).mapM fun it => stillExact rd cfg t w some it cfg.probes [] with
  | none => rfl
  | some ds =>
    have hd : (ds.headD []).length = 0 := by
      have k : stillExact rd cfg t w some ⟨"E_r".toList, none, false, 0⟩ cfg.probes [] = some [] :=
        exact_skips counted cfg.probes [] (fun _ h => h) fun p hp s => first p hp s.1 s.2.1
      rw [mapM_head (x := (⟨"E_r".toList, none, false, 0⟩ : StillItem)) e k [], List.length_nil]
    rw [Option.bind_some, if_pos ⟨hd, rfl⟩]
    obtain ⟨y, -, y2⟩ := mapM_mem e other
    rw [mapM_none y2 (bigger_none counted cfg.probes y (fun _ h => h) (Or.inl again) files (fun h => by rw [again] at h; cases h) saved), Option.bind_none]

/-- The temperature saved in the whole grid -/
example (D : ℕ → List Char → ℤ → ℤ → ℤ → ℝ) : stillMaps (fun r c u n => if u = (0, 0, 10, 10) then allFrames D r c u n else none) (seriesCfg 1 wholeProbes) 100 (2, 3, 6, 8) true
    (fourItems "electrons".toList) = none := by
  refine C116_again_violated _ _ 100 _ _ ⟨"T".toList, some "electrons".toList, true, 0⟩ whole_counted (by simp [fourItems]) rfl ?_ ?_ ?_
  · simp [seriesCfg, wholeProbes]
  · simp [seriesCfg, wholeProbes, StillItem.SavedBy, StillItem.Wants, PyProbe.Contains]
  · simp

/-- **C116 is violated for all HDF5 results**: as soon as the first data set was saved so that the notebook finds it, the reader raises, for maps and profiles alike. -/
theorem C116_hdf5_violated {α : Type} (cfg : PyParams) (t : ℝ) (w : ℤ × ℤ × ℤ × ℤ) (pick : List (List ℝ) → Option (List α)) (autoselect : Bool) (it : StillItem)
    (items : List StillItem) (counted : Counted cfg) (saved : ∃ p ∈ cfg.probes, it.SavedBy p ∧ (p.window = w ∨ p.Contains w ∧ autoselect = true)) :
    stillData (fun _ => h5Still) cfg t w pick autoselect (it :: items) = none := by
  unfold stillData
  by_cases h : ∃ p ∈ cfg.probes, it.SavedBy p ∧ p.window = w
  · obtain ⟨p, p1, p2, p3⟩ := h
    rw [mapM_none (x := it) (by simp) (exact_none counted cfg.probes [] (fun _ h => h) ⟨p, p1, p2, p3, rfl⟩), Option.bind_none]
  · push Not at h
    obtain ⟨p, p1, p2, p3⟩ := saved
    obtain ⟨p3, ha⟩ := p3.resolve_left (h p p1 p2)
    have k : stillExact (fun _ => h5Still) cfg t w pick it cfg.probes [] = some [] := exact_skips counted cfg.probes [] (fun _ h => h) h
    cases e : (it :: items).mapM fun it => stillExact (fun _ => h5Still) cfg t w pick it cfg.probes [] with
    | none => rfl
    | some ds =>
      have hd : (ds.headD []).length = 0 := by rw [mapM_head e k [], List.length_nil]
      rw [Option.bind_some, if_pos ⟨hd, ha⟩]
      obtain ⟨y, y1, y2⟩ := mapM_mem e (x := it) (by simp)
      rw [k] at y1
      obtain rfl : [] = y := Option.some.inj y1
      exact mapM_none y2 (bigger_none counted cfg.probes [] (fun _ h => h) (Or.inr rfl) (fun _ => rfl) (fun _ _ _ => rfl) ⟨p, p1, p2, p3⟩)

/-- The density in the whole grid -/
example : stillMaps (fun _ => h5Still) (seriesCfg 1 wholeProbes) 100 (0, 0, 10, 10) true (densityItems "electrons".toList) = none := by
  unfold stillMaps densityItems
  rw [C116_hdf5_violated _ _ _ _ _ _ _ whole_counted, Option.bind_none]
  simp [seriesCfg, wholeProbes, StillItem.SavedBy, StillItem.Wants, PyProbe.window]

end Verif
