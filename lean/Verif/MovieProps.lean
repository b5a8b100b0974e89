import Verif.Movie
import Verif.ReaderProps
import Verif.PyIndexProps

/-!
# C98: a movie shows every n-th frame of the time asked for
-/

namespace Verif

open Classical

/-! ## Specification -/

/-- The frames with numbers from `s` to before `e` that are multiples of `step`, in order, each with its time -/
noncomputable def wantedFrames {α : Type} (p : PyParams) (d step s e : ℤ) (rec : ℤ → α) : List (ℝ × α) :=
  ((intRange s e).filter fun n => step ∣ n).map fun n : ℤ => ((n : ℝ) * p.step_interval * d, rec n)

/-- Every data set from `a` to before `b` is complete and holds the frames `rec`, `c` to a data set -/
def DatasetsHold {α : Type} (ds : ℤ → Option (List α)) (c : ℕ) (rec : ℤ → α) (a b : ℤ) : Prop :=
  ∀ i, a ≤ i → i < b → ds i = some ((List.range c).map fun k : ℕ => rec (i * c + k))

/-- The times asked for are those of the frames `s` and `e`: given as a range that ends within the simulation, or by default
as the whole simulation -/
def AsksFor (p : PyParams) (d : ℤ) (time_range : Option (ℝ × ℝ)) (s e : ℤ) : Prop :=
  (time_range = some (s * p.step_interval * d, e * p.step_interval * d) ∧ e * p.step_interval * d ≤ p.end_time) ∨
    (time_range = none ∧ p.start_time = s * p.step_interval * d ∧ p.end_time = e * p.step_interval * d)

/-! ## Lists -/

theorem intRange_append {a b c : ℤ} (h1 : a ≤ b) (h2 : b ≤ c) : intRange a b ++ intRange b c = intRange a c := by
  unfold intRange
  obtain ⟨x, rfl⟩ : ∃ x : ℕ, b = a + x := ⟨(b - a).toNat, by omega⟩
  obtain ⟨y, rfl⟩ : ∃ y : ℕ, c = a + x + y := ⟨(c - (a + x)).toNat, by omega⟩
  have e1 : (a + (x : ℤ) - a).toNat = x := by omega
  have e2 : (a + (x : ℤ) + y - (a + x)).toNat = y := by omega
  have e3 : (a + (x : ℤ) + y - a).toNat = x + y := by omega
  rw [e1, e2, e3, List.range_add, List.map_append, List.map_map]
  congr 1
  apply List.map_congr_left
  intro k _
  simp only [Function.comp]
  push_cast
  ring

/-- blocks of `c` numbers one after the other -/
theorem blocks (c : ℕ) (a b : ℤ) (h : a ≤ b) :
    (intRange a b).flatMap (fun i => (List.range c).map fun k : ℕ => i * c + (k : ℤ)) = intRange (a * c) (b * c) := by
  obtain ⟨n, rfl⟩ : ∃ n : ℕ, b = a + n := ⟨(b - a).toNat, by omega⟩
  clear h
  induction n with
  | zero => simp [intRange]
  | succ n ih =>
    have c0 : (0 : ℤ) ≤ c := by omega
    have e : a + ((n + 1 : ℕ) : ℤ) = a + n + 1 := by push_cast; ring
    rw [e, ← intRange_append (b := a + n) (by omega) (by omega), List.flatMap_append, ih,
      ← intRange_append (a := a * c) (b := (a + n) * c) (c := (a + n + 1) * c) (by nlinarith) (by nlinarith)]
    congr 1
    have e1 : (a + (n : ℤ) + 1 - (a + n)).toNat = 1 := by omega
    have e2 : ((a + (n : ℤ) + 1) * c - (a + n) * c).toNat = c := by
      have : (a + (n : ℤ) + 1) * c - (a + n) * c = c := by ring
      rw [this]; omega
    unfold intRange
    rw [e1, e2]
    simp

theorem mapM_some_of {α β : Type} {f : α → Option β} {g : α → β} {l : List α} (h : ∀ x ∈ l, f x = some (g x)) :
    l.mapM f = some (l.map g) := by
  induction l with
  | nil => rfl
  | cons x l ih => simp [List.mapM_cons, h x (by simp), ih fun y hy => h y (by simp [hy])]

theorem dataset_frames {α : Type} (p : PyParams) (d step i : ℤ) (hst : step ≠ 0) (c : ℕ) (hc : p.frames_per_file = c)
    (rec : ℤ → α) : movieDataset p d step i ((List.range c).map fun k : ℕ => rec (i * c + k)) =
      some ((((List.range c).map fun k : ℕ => i * c + (k : ℤ)).filter fun n => step ∣ n ∧ step ∣ i).map
        fun n : ℤ => ((n : ℝ) * p.step_interval * d, rec n)) := by
  unfold movieDataset
  rw [if_neg (fun h => hst h.1), hc]
  congr 1
  have e : ((List.range c).map fun k : ℕ => rec (i * c + k)).zipIdx =
      (List.range c).map fun k : ℕ => (rec (i * c + k), k) := by
    apply List.ext_getElem
    · simp
    · intro k h1 h2
      simp
  rw [e, List.filterMap_map, List.filter_map, List.map_map, ← List.filterMap_eq_map, List.filterMap_filter]
  apply List.filterMap_congr
  intro k _
  simp only [Function.comp, timeByFrame]
  have e2 : (k : ℤ) + i * c = i * c + k := by ring
  rw [e2]
  by_cases h1 : step ∣ i * c + k <;> by_cases h2 : step ∣ i <;> simp [h1, h2]

/-! ## From times to frames -/

theorem frame_nearest (p : PyParams) (hdt : 0 < p.step_interval) (d : ℤ) (hd : 0 < d) (t : ℝ) (n : ℤ) :
    |t - frameByTime p t d * p.step_interval * d| ≤ |t - n * p.step_interval * d| := by
  have hd' : (0 : ℝ) < d := by exact_mod_cast hd
  have key : ∀ m : ℤ, |t - m * p.step_interval * d| = |t / p.step_interval / d - m| * (p.step_interval * d) := by
    intro m
    rw [← abs_of_pos (show (0 : ℝ) < p.step_interval * d by positivity), ← abs_mul]
    congr 1
    field_simp
  rw [key, key]
  exact mul_le_mul_of_nonneg_right (npRound_best _ n) (by positivity)

theorem frame_of_time (p : PyParams) (hdt : 0 < p.step_interval) (d : ℤ) (hd : 0 < d) (n : ℤ) :
    frameByTime p (n * p.step_interval * d) d = n := by
  have hd' : (0 : ℝ) < d := by exact_mod_cast hd
  have : (n : ℝ) * p.step_interval * d / p.step_interval / d = (n : ℝ) := by field_simp
  rw [frameByTime, this, npRound_int]

theorem asksFor_frames {p : PyParams} (hdt : 0 < p.step_interval) {d : ℤ} (hd : 0 < d) {time_range : Option (ℝ × ℝ)}
    {s e : ℤ} (hle : s ≤ e) (h : AsksFor p d time_range s e) : movieFrames p d time_range = some (s, e) := by
  have hd' : (0 : ℝ) < d := by exact_mod_cast hd
  have hle' : (s : ℝ) ≤ e := by exact_mod_cast hle
  unfold movieFrames
  rw [if_neg (not_or.2 ⟨hdt.ne', hd.ne'⟩)]
  rcases h with ⟨rfl, h⟩ | ⟨rfl, h1, h2⟩
  · have h1 : ¬ ((s : ℝ) * p.step_interval * d > e * p.step_interval * d) := by
      push Not; gcongr
    simp only [h1, not_lt.2 h, if_false, frame_of_time p hdt d hd]
  · simp only [h1, h2, frame_of_time p hdt d hd]

/-- **C98** The range of frames for a range of times: the frames nearest to its ends; and a range that ends before it
begins or after the simulation is refused. -/
theorem C98_range (p : PyParams) (hdt : 0 < p.step_interval) (d : ℤ) (hd : 0 < d) (a b : ℝ) :
    (a ≤ b → b ≤ p.end_time → ∃ s e : ℤ, movieFrames p d (some (a, b)) = some (s, e) ∧
      ∀ n : ℤ, |a - s * p.step_interval * d| ≤ |a - n * p.step_interval * d| ∧
        |b - e * p.step_interval * d| ≤ |b - n * p.step_interval * d|) ∧
    (b < a ∨ p.end_time < b → ∀ (α : Type) (components : List (List Char)) (ds : ℤ → Option (List α)) (get : ℤ → Option α)
      (step : ℤ), movieInterval p components = some d → moviePlain p components ds (some (a, b)) step = none ∧
        movieHdf5 p components get (some (a, b)) step = none) := by
  constructor
  · intro h1 h2
    refine ⟨frameByTime p a d, frameByTime p b d, ?_, fun n => ⟨frame_nearest p hdt d hd a n, frame_nearest p hdt d hd b n⟩⟩
    unfold movieFrames
    rw [if_neg (not_or.2 ⟨hdt.ne', hd.ne'⟩)]
    simp only [gt_iff_lt, not_lt.2 h1, not_lt.2 h2, if_false]
  · intro h α components ds get step hi
    have hm : movieFrames p d (some (a, b)) = none := by
      unfold movieFrames
      split_ifs with h0
      · rfl
      · rcases h with h | h
        · simp only [gt_iff_lt, h, if_true]
        · simp only [gt_iff_lt, h, if_true, ite_self]
    constructor
    · unfold moviePlain; rw [hi]; simp [hm]
    · unfold movieHdf5; rw [hi]; simp [hm]

/-! ## Which frames are shown -/

/-- **C98** What a movie from text files shows, for every time range and step: the frames of the whole data sets from the
one of the first frame to before the one of the end frame, and of these the frames for which the step divides both the
number of the frame and the number of its data set. -/
theorem C98_plain_shown {α : Type} (p : PyParams) (components : List (List Char)) (ds : ℤ → Option (List α))
    (time_range : Option (ℝ × ℝ)) (step : ℤ) (hst : step ≠ 0) (c : ℕ) (hc0 : 0 < c) (hc : p.frames_per_file = c)
    (d s e : ℤ) (hd : movieInterval p components = some d) (hdt : 0 < p.step_interval) (hd0 : 0 < d) (hask : AsksFor p d time_range s e)
    (hle : s ≤ e)
    (rec : ℤ → α) (H : DatasetsHold ds c rec (s / c) (e / c)) :
    moviePlain p components ds time_range step =
      some (((intRange (s / c * c) (e / c * c)).filter fun n => step ∣ n ∧ step ∣ n / c).map
        fun n : ℤ => ((n : ℝ) * p.step_interval * d, rec n)) := by
  have hse := asksFor_frames hdt hd0 hle hask
  have c0 : (0 : ℤ) < c := by exact_mod_cast hc0
  unfold moviePlain
  rw [hd]
  simp only [Option.bind_eq_bind, Option.bind_some, hse, hc, if_neg c0.ne']
  rw [Int.fdiv_eq_ediv_of_nonneg _ c0.le, Int.fdiv_eq_ediv_of_nonneg _ c0.le]
  rw [mapM_some_of (g := fun i => (((List.range c).map fun k : ℕ => i * c + (k : ℤ)).filter
    fun n => step ∣ n ∧ step ∣ n / c).map fun n : ℤ => ((n : ℝ) * p.step_interval * d, rec n))]
  · simp only [Option.bind_some, Option.pure_def, Option.some.injEq]
    rw [← blocks c _ _ (Int.ediv_le_ediv c0 hle), List.filter_flatMap, List.map_flatMap, List.flatMap_def]
  · intro i hi
    rw [mem_intRange] at hi
    rw [H i hi.1 hi.2, Option.bind_some, dataset_frames p d step i hst c hc rec]
    congr 2
    apply List.filter_congr
    intro n hn
    obtain ⟨k, hk, rfl⟩ := List.mem_map.1 hn
    rw [List.mem_range] at hk
    have : (i * c + (k : ℤ)) / c = i := by
      rw [add_comm, Int.add_mul_ediv_right _ _ c0.ne', Int.ediv_eq_zero_of_lt (by omega) (by exact_mod_cast hk), zero_add]
    rw [this]

/-- **C98** (part) Text files: with step one and a time range from the beginning of a data set to the beginning of a data
set the movie shows what was asked for.  Missing: other ranges (`C98_head_violated`, `C98_tail_violated`) and other steps
(`C98_step_violated`). -/
theorem C98_plain_partial {α : Type} (p : PyParams) (components : List (List Char)) (ds : ℤ → Option (List α))
    (time_range : Option (ℝ × ℝ)) (c : ℕ) (hc0 : 0 < c) (hc : p.frames_per_file = c)
    (d s e : ℤ) (hd : movieInterval p components = some d) (hdt : 0 < p.step_interval) (hd0 : 0 < d) (hask : AsksFor p d time_range s e)
    (hle : s ≤ e)
    (hs : (c : ℤ) ∣ s) (he : (c : ℤ) ∣ e) (rec : ℤ → α) (H : DatasetsHold ds c rec (s / c) (e / c)) :
    moviePlain p components ds time_range 1 = some (wantedFrames p d 1 s e rec) := by
  rw [C98_plain_shown p components ds time_range 1 one_ne_zero c hc0 hc d s e hd hdt hd0 hask hle rec H]
  unfold wantedFrames
  rw [Int.ediv_mul_cancel hs, Int.ediv_mul_cancel he]
  simp

/-- **C98** HDF5: the movie shows exactly what was asked for, for every range and step. -/
theorem C98_hdf5 {α : Type} (p : PyParams) (components : List (List Char)) (get : ℤ → Option α)
    (time_range : Option (ℝ × ℝ)) (step : ℤ) (hst : step ≠ 0) (d s e : ℤ) (hd : movieInterval p components = some d)
    (hdt : 0 < p.step_interval) (hd0 : 0 < d) (hask : AsksFor p d time_range s e) (hle : s ≤ e) (rec : ℤ → α) (H : ∀ n, s ≤ n → n < e → get n = some (rec n)) :
    movieHdf5 p components get time_range step = some (wantedFrames p d step s e rec) := by
  have hse := asksFor_frames hdt hd0 hle hask
  unfold movieHdf5
  rw [hd]
  simp only [Option.bind_eq_bind, Option.bind_some, hse]
  rw [mapM_some_of (g := fun i => if step ∣ i then [((i : ℝ) * p.step_interval * d, rec i)] else [])]
  · simp only [Option.bind_some, Option.pure_def, Option.some.injEq]
    unfold wantedFrames
    induction intRange s e with
    | nil => rfl
    | cons n l ih =>
      rw [List.map_cons, List.flatten_cons, ih, List.filter_cons]
      by_cases h : step ∣ n <;> simp [h]
  · intro i hi
    rw [mem_intRange] at hi
    rw [H i hi.1 hi.2, Option.bind_some, if_neg hst]
    rfl

/-! ## Violations -/

/-- **C98** (violated) Text files: frames at the end of the time asked for that lie in the data set of the end frame are
left out, the last one always. -/
theorem C98_tail_violated {α : Type} (p : PyParams) (components : List (List Char)) (ds : ℤ → Option (List α))
    (time_range : Option (ℝ × ℝ)) (c : ℕ) (hc0 : 0 < c) (hc : p.frames_per_file = c)
    (d s e : ℤ) (hd : movieInterval p components = some d) (hdt : 0 < p.step_interval) (hd0 : 0 < d) (hask : AsksFor p d time_range s e) (hle : s < e)
    (he : ¬ (c : ℤ) ∣ e) (rec : ℤ → α) (H : DatasetsHold ds c rec (s / c) (e / c)) :
    ∃ l, moviePlain p components ds time_range 1 = some l ∧
      (((e - 1 : ℤ) : ℝ) * p.step_interval * d, rec (e - 1)) ∈ wantedFrames p d 1 s e rec ∧
      ∀ x, (((e - 1 : ℤ) : ℝ) * p.step_interval * d, x) ∉ l := by
  have c0 : (0 : ℤ) < c := by exact_mod_cast hc0
  refine ⟨_, C98_plain_shown p components ds time_range 1 one_ne_zero c hc0 hc d s e hd hdt hd0 hask hle.le rec H, ?_, ?_⟩
  · unfold wantedFrames
    exact List.mem_map.2 ⟨e - 1, by rw [List.mem_filter, mem_intRange]; simp; omega, rfl⟩
  · intro x hx
    obtain ⟨n, hn, hx⟩ := List.mem_map.1 hx
    rw [List.mem_filter, mem_intRange] at hn
    have h1 := (Prod.mk.injEq _ _ _ _ ▸ hx).1
    have h2 : (n : ℝ) = ((e - 1 : ℤ) : ℝ) :=
      mul_right_cancel₀ hdt.ne' (mul_right_cancel₀ (Int.cast_ne_zero.2 hd0.ne') h1)
    have h3 : n = e - 1 := by exact_mod_cast h2
    have h4 : e / c * c ≠ e := fun h => he ⟨e / c, by rw [mul_comm]; exact h.symm⟩
    have h5 := Int.ediv_mul_le e c0.ne'
    omega

/-- **C98** (violated) Text files: frames before the time asked for are shown if it does not begin with a data set and
reaches into another one. -/
theorem C98_head_violated {α : Type} (p : PyParams) (components : List (List Char)) (ds : ℤ → Option (List α))
    (time_range : Option (ℝ × ℝ)) (c : ℕ) (hc0 : 0 < c) (hc : p.frames_per_file = c)
    (d s e : ℤ) (hd : movieInterval p components = some d) (hdt : 0 < p.step_interval) (hd0 : 0 < d) (hask : AsksFor p d time_range s e)
    (hs : ¬ (c : ℤ) ∣ s) (hlt : s / c < e / c) (rec : ℤ → α) (H : DatasetsHold ds c rec (s / c) (e / c)) :
    ∃ l, moviePlain p components ds time_range 1 = some l ∧ s / c * c < s ∧
      l.head? = some (((s / c * c : ℤ) : ℝ) * p.step_interval * d, rec (s / c * c)) := by
  have c0 : (0 : ℤ) < c := by exact_mod_cast hc0
  have hle : s ≤ e := by
    by_contra h
    have := Int.ediv_le_ediv c0 (not_le.1 h).le
    omega
  refine ⟨_, C98_plain_shown p components ds time_range 1 one_ne_zero c hc0 hc d s e hd hdt hd0 hask hle rec H, ?_, ?_⟩
  · have h4 : s / c * c ≠ s := fun h => hs ⟨s / c, by rw [mul_comm]; exact h.symm⟩
    have h5 := Int.ediv_mul_le s c0.ne'
    omega
  · have : ∃ n : ℕ, (e / c * c - s / c * c).toNat = n + 1 := by
      have : 0 < e / c * c - s / c * c := by nlinarith
      exact ⟨(e / c * c - s / c * c).toNat - 1, by omega⟩
    obtain ⟨n, hn⟩ := this
    unfold intRange
    rw [hn, List.range_succ_eq_map]
    simp

/-- **C98** (violated) Text files: every second frame was asked for, but of every second data set no frame is shown. -/
theorem C98_step_violated {α : Type} (p : PyParams) (components : List (List Char)) (ds : ℤ → Option (List α))
    (time_range : Option (ℝ × ℝ)) (c : ℕ) (hc0 : 0 < c) (hc : p.frames_per_file = c)
    (d s e : ℤ) (hd : movieInterval p components = some d) (hdt : 0 < p.step_interval) (hd0 : 0 < d) (hask : AsksFor p d time_range s e)
    (rec : ℤ → α) (H : DatasetsHold ds c rec (s / c) (e / c)) (hle : s ≤ e) (n : ℤ) (h2 : 2 ∣ n) (hn : s ≤ n) (hn' : n < e)
    (hodd : ¬ 2 ∣ n / c) :
    ∃ l, moviePlain p components ds time_range 2 = some l ∧
      ((n : ℝ) * p.step_interval * d, rec n) ∈ wantedFrames p d 2 s e rec ∧
      ∀ x, ((n : ℝ) * p.step_interval * d, x) ∉ l := by
  refine ⟨_, C98_plain_shown p components ds time_range 2 two_ne_zero c hc0 hc d s e hd hdt hd0 hask hle rec H, ?_, ?_⟩
  · unfold wantedFrames
    exact List.mem_map.2 ⟨n, by rw [List.mem_filter, mem_intRange]; exact ⟨⟨hn, hn'⟩, by simpa using h2⟩, rfl⟩
  · intro x hx
    obtain ⟨m, hm, hx⟩ := List.mem_map.1 hx
    have h1 := (Prod.mk.injEq _ _ _ _ ▸ hx).1
    have h2 : (m : ℝ) = (n : ℝ) := mul_right_cancel₀ hdt.ne' (mul_right_cancel₀ (Int.cast_ne_zero.2 hd0.ne') h1)
    have h3 : m = n := by exact_mod_cast h2
    rw [List.mem_filter, h3] at hm
    exact hodd (by simpa using (of_decide_eq_true hm.2).2)

/-- **C98** (violated) The interval between frames is taken from the first probe of the component of whatever type: with a
dot of every step before the frames of every tenth step, the time shown with a frame is a tenth of its time. -/
theorem C98_interval_violated (p : PyParams) (dot frame : PyProbe) (rest : List PyProbe) (name : List Char)
    (hp : p.probes = dot :: frame :: rest) (_h1 : dot.type = "dot".toList) (h2 : dot.component = name)
    (h3 : dot.schedule = 1) (_h4 : frame.type = "frame".toList) (_h5 : frame.component = name) (h6 : frame.schedule = 10)
    (hdt : 0 < p.step_interval) (n : ℤ) (hn : 0 < n) :
    movieInterval p [name] = some 1 ∧ timeByFrame p n 1 * 10 = timeByFrame p n frame.schedule ∧
      timeByFrame p n 1 < timeByFrame p n frame.schedule := by
  have hn' : (0 : ℝ) < n := by exact_mod_cast hn
  have := mul_pos hn' hdt
  refine ⟨?_, ?_, ?_⟩
  · unfold movieInterval
    rw [hp, List.find?_cons_of_pos (by simp [h2]), Option.map_some, h3]
  · rw [h6]; unfold timeByFrame; push_cast; ring
  · rw [h6]; unfold timeByFrame; push_cast; linarith

/-! ## From the simulator to the movie -/

/-- **C98** (part) A run from time zero with a probe for frames of the whole grid, and a movie of it with step one and a
time range between beginnings of data sets, all of them written: each image shows the array of the step whose time is in
the title, in the six digits of the text files, and all dumped steps of the range are shown in order. -/
theorem C98_run_partial (nr nz fpf : ℕ) (hfpf : 0 < fpf) (p : ProbeCfg) (hp : p.kind = .frame) (hr0 : p.start_r = 0)
    (hz0 : p.start_z = 0) (hr1 : p.end_r = nr) (hz1 : p.end_z = nz) (hs : 0 < p.schedule) (hin : p.InBounds nr nz)
    (q : PyParams) (hdt : 0 < q.step_interval) (hq : q.frames_per_file = fpf) (components : List (List Char))
    (hd : movieInterval q components = some p.schedule) (time_range : Option (ℝ × ℝ)) (s e : ℤ)
    (hask : AsksFor q p.schedule time_range s e) (h0 : 0 ≤ s) (hle : s ≤ e) (hs' : (fpf : ℤ) ∣ s)
    (he' : (fpf : ℤ) ∣ e) (A : ℕ → Grid) (N : ℕ) (hN : e ≤ (firingSteps p 0 q.step_interval N).length) :
    ∃ st, probeRun nr nz fpf p 0 q.step_interval A ⟨0, fun _ => none⟩ N = some st ∧
      moviePlain q components (framesInDs st.dir fpf nr nz) time_range 1 =
        some ((intRange s e).map fun n => (((n * p.schedule : ℤ) : ℝ) * q.step_interval, p.rows (A (n * p.schedule).toNat))) := by
  have c0 : (0 : ℤ) < fpf := by exact_mod_cast hfpf
  obtain ⟨st, h1, _, hdir⟩ := C32_probe_files nr nz fpf hfpf p hs hin 0 q.step_interval le_rfl hdt A N
  refine ⟨st, h1, ?_⟩
  have hrl : (records p 0 q.step_interval A N).length = (firingSteps p 0 q.step_interval N).length := by simp [records]
  have eR : (p.end_r - p.start_r).toNat = nr := by rw [hr1, hr0]; omega
  have eZ : (p.end_z - p.start_z).toNat = nz := by rw [hz1, hz0]; omega
  rw [C98_plain_partial q components _ time_range fpf hfpf hq p.schedule s e hd hdt hs hask hle hs' he'
    (fun n => p.rows (A (n * p.schedule).toNat))]
  · unfold wantedFrames
    simp only [one_dvd, decide_true, List.filter_true]
    congr 1
    apply List.map_congr_left
    intro n _
    push_cast
    rw [mul_right_comm]
  · intro i hi hi'
    have i0 : 0 ≤ i := le_trans (Int.ediv_nonneg h0 c0.le) hi
    obtain ⟨m, rfl⟩ : ∃ m : ℕ, i = m := ⟨i.toNat, by omega⟩
    have hfull : (m + 1) * fpf ≤ (firingSteps p 0 q.step_interval N).length := by
      have : ((m : ℤ) + 1) * fpf ≤ e := (mul_le_mul_of_nonneg_right (by omega) c0.le).trans (Int.ediv_mul_le e c0.ne')
      exact_mod_cast this.trans hN
    unfold framesInDs allFramesInDs
    rw [if_neg (by omega), Int.toNat_natCast]
    have key := allInDs_complete hfpf hdir (frame_records_length p hp 0 q.step_interval A N) (by rw [hrl]; exact hfull)
    rw [eR, eZ] at key
    rw [key]
    have hr : (List.take fpf (List.drop (m * fpf) (records p 0 q.step_interval A N)))
        = (((firingSteps p 0 q.step_interval N).drop (m * fpf)).take fpf |>.map A).map
          (fun B => (p.rows B).flatten) := by
      unfold records
      rw [← List.map_drop, ← List.map_take, List.map_map]
      apply List.map_congr_left
      intro i _
      exact frame_record p hp (A i)
    rw [Option.bind_some, hr, mapM_reshape p eR.symm eZ.symm]
    congr 1
    rw [Nat.succ_mul] at hfull
    apply List.ext_getElem
    · simp; omega
    · intro k k1 k2
      simp only [List.length_map, List.length_range] at k2
      simp only [List.getElem_map, List.getElem_take, List.getElem_drop, List.getElem_range]
      have hk : m * fpf + k < (firingSteps p 0 q.step_interval N).length := by omega
      have hj := firing_zero p hs q.step_interval N (m * fpf + k) _ (List.getElem?_eq_getElem hk)
      have : ((m : ℤ) * fpf + k) * p.schedule = ((firingSteps p 0 q.step_interval N)[m * fpf + k] : ℤ) := by
        rw [hj]; push_cast; ring
      rw [this, Int.toNat_natCast]

/-! ## Cases that meet the hypotheses -/

/-- a configuration with the probes `ps`, two frames to a file, steps of one second and ten seconds of simulation -/
noncomputable def demoParams (ps : List PyProbe) : PyParams :=
  ⟨.bool false, 3, 4, 1, 1, ps, [], [], 2, 1, 1, 1, 1, 1, 1, [], 0, 10, 1⟩

def demoFrames : PyProbe := ⟨"frame".toList, "E_r".toList, 1, 0, 0, 3, 4, []⟩

theorem demo_interval : movieInterval (demoParams [demoFrames]) ["E_r".toList] = some 1 := by
  simp [movieInterval, demoParams, demoFrames]

theorem demo_range (a b : ℤ) (hb : b ≤ 10) : AsksFor (demoParams [demoFrames]) 1 (some ((a : ℝ), (b : ℝ))) a b := by
  refine Or.inl ⟨by simp [demoParams], ?_⟩
  have : (b : ℝ) ≤ 10 := by exact_mod_cast hb
  simpa [demoParams] using this

/-- Not vacuous: frames 4 to 8 of that configuration (range of whole data sets), 3 to 7 (neither end is), and frame 6 with
step two, in data set 3 -/
example : movieInterval (demoParams [demoFrames]) ["E_r".toList] = some 1 ∧
    AsksFor (demoParams [demoFrames]) 1 (some (((4 : ℤ) : ℝ), ((8 : ℤ) : ℝ))) 4 8 ∧ (2 : ℤ) ∣ 4 ∧ (2 : ℤ) ∣ 8 ∧
    AsksFor (demoParams [demoFrames]) 1 (some (((3 : ℤ) : ℝ), ((7 : ℤ) : ℝ))) 3 7 ∧ ¬ (2 : ℤ) ∣ 3 ∧
    ¬ (2 : ℤ) ∣ 7 ∧ (3 : ℤ) / 2 < 7 / 2 ∧ (2 : ℤ) ∣ 6 ∧ ¬ (2 : ℤ) ∣ 6 / 2 ∧
    DatasetsHold (fun i => some ((List.range 2).map fun k : ℕ => i * (2 : ℕ) + (k : ℤ))) 2 (fun n => n) 0 5 ∧
    8 ≤ (firingSteps ⟨.frame, 0, 0, 3, 4, 1⟩ 0 (demoParams [demoFrames]).step_interval 10).length ∧
    (⟨.frame, 0, 0, 3, 4, 1⟩ : ProbeCfg).InBounds 3 4 := by
  refine ⟨demo_interval, demo_range 4 8 (by norm_num), by norm_num, by norm_num,
    demo_range 3 7 (by norm_num), by norm_num, by norm_num, by norm_num, by norm_num, by norm_num,
    fun _ _ _ => rfl, ?_, ?_⟩
  · simp [firingSteps]
  · simp [ProbeCfg.InBounds]

/-! ## C99: the converter -/

/-- **C99** (violated) The converter from text files to HDF5 raises for every configuration, before it has opened the new
file: it asks the configuration for `system_state_path`, which the configuration does not have. -/
theorem C99_converter_violated {β : Type} (file : List Char) (root : Xml) (rest : PyParams → Option β) :
    plain2hdf5 file root rest = none := by
  unfold plain2hdf5
  cases pyParams file root with
  | none => rfl
  | some cfg => simp [readAttribute, parametersAttributes]

end Verif
