import Verif.PyParamsDesc
import Verif.LibProps

/-!
# The tools look where the simulator writes (C72)
-/

namespace Verif

/-! ## Specification: the directory that a path means -/

/-- One name of a path: empty and `.` stay, `..` goes to the parent (the root is its own parent), others go inside.
The directory is the list of names from the inside to the outside; links are left out. -/
def stepDir (dir : List (List Char)) (w : List Char) : List (List Char) :=
  if w = [] ∨ w = ['.'] then dir else if w = ['.', '.'] then dir.tail else w :: dir

/-- The directory that a path means in the current directory `cwd`; a path with a slash at the beginning starts at the
root. -/
def walk (cwd : List (List Char)) (p : List Char) : List (List Char) :=
  (splitSlash p).foldl stepDir (if p.head? = some '/' then [] else cwd)

/-! ## Proofs -/

theorem splitSlash_ne (p : List Char) : splitSlash p ≠ [] := by
  cases p with
  | nil => simp [splitSlash]
  | cons c t =>
    unfold splitSlash
    split
    · simp
    · split <;> simp

theorem splitSlash_word {w : List Char} (h : '/' ∉ w) : splitSlash w = [w] := by
  induction w with
  | nil => rfl
  | cons c t ih =>
    simp only [splitSlash]
    rw [if_neg (by rintro rfl; simp at h), ih (by intro hh; apply h; simp [hh])]

theorem splitSlash_noSlash (p : List Char) : ∀ w ∈ splitSlash p, '/' ∉ w := by
  induction p with
  | nil => simp [splitSlash]
  | cons c t ih =>
    simp only [splitSlash]
    split
    · intro w hw
      rcases List.mem_cons.1 hw with rfl | hw
      · simp
      · exact ih w hw
    · next hc =>
      obtain ⟨w, ws, hw⟩ := List.exists_cons_of_ne_nil (splitSlash_ne t)
      rw [hw]
      rw [hw] at ih
      intro v hv
      rcases List.mem_cons.1 hv with rfl | hv
      · have := ih w (by simp)
        simp only [List.mem_cons, not_or]
        exact ⟨fun e => hc e.symm, this⟩
      · exact ih v (by simp [hv])

theorem splitSlash_join {l : List (List Char)} (hne : l ≠ []) (h : ∀ w ∈ l, '/' ∉ w) : splitSlash (joinSlash l) = l := by
  induction l with
  | nil => exact absurd rfl hne
  | cons w l ih =>
    cases l with
    | nil => exact splitSlash_word (h w (by simp))
    | cons v l =>
      show splitSlash (w ++ '/' :: joinSlash (v :: l)) = _
      rw [splitSlash_append, ih (by simp) (fun x hx => h x (by simp [hx])), splitSlash_word (h w (by simp))]
      rfl

theorem normComps_mem {b : Bool} : ∀ {ws acc : List (List Char)} {P : List Char → Prop}, (∀ w ∈ acc, P w) →
    (∀ w ∈ ws, ¬(w = [] ∨ w = ['.']) → P w) → ∀ w ∈ normComps b acc ws, P w := by
  intro ws
  induction ws with
  | nil =>
    intro acc P ha _ w hw
    rw [normComps, List.mem_reverse] at hw
    exact ha w hw
  | cons v ws ih =>
    intro acc P ha hws
    have hws' : ∀ w ∈ ws, ¬(w = [] ∨ w = ['.']) → P w := fun w hw => hws w (by simp [hw])
    rw [normComps]
    split_ifs with h1 h2
    · exact ih ha hws'
    · refine ih ?_ hws'
      intro w hw
      rcases List.mem_cons.1 hw with rfl | hw
      · exact hws w (by simp) h1
      · exact ha w hw
    · refine ih ?_ hws'
      intro w hw
      exact ha w (List.mem_of_mem_tail hw)

theorem normComps_walk {b : Bool} {s : List (List Char)} (hs : b = true → s = []) :
    ∀ {ws acc : List (List Char)}, (∀ w ∈ acc, ¬(w = [] ∨ w = ['.'])) →
      (normComps b acc ws).foldl stepDir s = ws.foldl stepDir (acc.reverse.foldl stepDir s) := by
  intro ws
  induction ws with
  | nil => intro acc _; rfl
  | cons v ws ih =>
    intro acc ha
    rw [normComps, List.foldl_cons]
    split_ifs with h1 h2
    · rw [ih ha]
      conv_rhs => rw [stepDir, if_pos h1]
    · rw [ih (by
        intro w hw
        rcases List.mem_cons.1 hw with rfl | hw
        · exact h1
        · exact ha w hw), List.reverse_cons, List.foldl_append]
      rfl
    · rw [ih (fun w hw => ha w (List.mem_of_mem_tail hw))]
      simp only [not_or, not_and, ne_eq, not_not] at h2
      obtain ⟨h3, h4, h5⟩ := h2
      congr 1
      conv_rhs => rw [stepDir, if_neg h1, if_pos h3]
      cases acc with
      | nil =>
        cases b with
        | false => exact absurd rfl (h4 rfl)
        | true =>
          rw [hs rfl]
          rfl
      | cons x acc =>
        rw [List.reverse_cons, List.foldl_append, List.tail_cons]
        show _ = (stepDir _ x).tail
        rw [stepDir, if_neg (ha x (by simp)), if_neg (by
          intro e
          apply h5
          rw [e]
          rfl)]
        rfl

theorem initialSlashes_pos (p : List Char) : 0 < initialSlashes p ↔ p.head? = some '/' := by
  unfold initialSlashes
  split
  · simp
  · simp
  · simp
  · next h =>
    simp only [lt_self_iff_false, false_iff]
    cases p with
    | nil => simp
    | cons c t =>
      simp only [List.head?_cons, Option.some.injEq]
      rintro rfl
      exact h t rfl

theorem joinSlash_head {l : List (List Char)} (h : ∀ w ∈ l, w ≠ [] ∧ '/' ∉ w) : (joinSlash l).head? ≠ some '/' := by
  match l with
  | [] => simp [joinSlash]
  | [w] =>
    obtain ⟨h1, h2⟩ := h w (by simp)
    obtain ⟨c, t, rfl⟩ := List.exists_cons_of_ne_nil h1
    simp only [joinSlash, List.head?_cons, ne_eq, Option.some.injEq]
    rintro rfl
    simp at h2
  | w :: v :: l =>
    obtain ⟨h1, h2⟩ := h w (by simp)
    obtain ⟨c, t, rfl⟩ := List.exists_cons_of_ne_nil h1
    simp only [joinSlash, List.cons_append, List.head?_cons, ne_eq, Option.some.injEq]
    rintro rfl
    simp at h2

theorem splitSlash_slashes (k : ℕ) (q : List Char) (s : List (List Char)) :
    (splitSlash (List.replicate k '/' ++ q)).foldl stepDir s = (splitSlash q).foldl stepDir s := by
  induction k with
  | zero => rfl
  | succ k ih =>
    rw [List.replicate_succ, List.cons_append]
    rw [splitSlash, if_pos rfl, List.foldl_cons]
    exact ih

/-- Normalising a path does not change the directory it means. -/
theorem walk_normpath (cwd : List (List Char)) (p : List Char) : walk cwd (normpath p) = walk cwd p := by
  obtain ⟨ws, hws⟩ : ∃ ws, ws = normComps (decide (0 < initialSlashes p)) [] (splitSlash p) := ⟨_, rfl⟩
  have hmem : ∀ w ∈ ws, w ≠ [] ∧ '/' ∉ w := by
    rw [hws]
    refine normComps_mem (by simp) ?_
    intro w hw hn
    exact ⟨fun e => hn (.inl e), splitSlash_noSlash p w hw⟩
  have hwalk : ws.foldl stepDir (if p.head? = some '/' then [] else cwd) = walk cwd p := by
    rw [hws, normComps_walk (acc := []) ?_ (by simp)]
    · rfl
    · intro h
      rw [decide_eq_true_eq, initialSlashes_pos] at h
      rw [if_pos h]
  have hj : ∀ s, (splitSlash (joinSlash ws)).foldl stepDir s = ws.foldl stepDir s := by
    intro s
    by_cases hne : ws = []
    · rw [hne]; rfl
    · rw [splitSlash_join hne fun w hw => (hmem w hw).2]
  unfold normpath
  simp only
  rw [← hws]
  split_ifs with hq
  · rw [← hwalk]
    rw [List.append_eq_nil_iff, List.replicate_eq_nil_iff] at hq
    have h0 : ¬ p.head? = some '/' := by rw [← initialSlashes_pos]; omega
    rw [if_neg h0]
    have : ws = [] := by
      by_contra hne
      have := splitSlash_join hne fun w hw => (hmem w hw).2
      rw [hq.2] at this
      rw [← this] at hmem
      exact (hmem [] (by simp [splitSlash])).1 rfl
    rw [this]
    rfl
  · rw [← hwalk]
    unfold walk
    rw [splitSlash_slashes, hj]
    congr 1
    by_cases h0 : p.head? = some '/'
    · rw [if_pos h0, if_pos]
      rw [← initialSlashes_pos] at h0
      obtain ⟨k, hk⟩ := Nat.exists_eq_succ_of_ne_zero (by omega : initialSlashes p ≠ 0)
      rw [hk, List.replicate_succ]
      rfl
    · rw [if_neg h0, if_neg]
      have : initialSlashes p = 0 := by
        by_contra hh
        exact h0 ((initialSlashes_pos p).1 (by omega))
      rw [this]
      exact joinSlash_head hmem

theorem walk_slash (cwd : List (List Char)) {a : List Char} (ha : a ≠ []) (b : List Char) :
    walk cwd (a ++ '/' :: b) = (splitSlash b).foldl stepDir (walk cwd a) := by
  unfold walk
  rw [splitSlash_append, List.foldl_append]
  obtain ⟨c, t, rfl⟩ := List.exists_cons_of_ne_nil ha
  rfl

theorem walk_rel {cwd : List (List Char)} {b : List Char} (hb : b.head? ≠ some '/') :
    walk cwd b = (splitSlash b).foldl stepDir cwd := by
  unfold walk
  rw [if_neg hb]

/-- Joining is going on from the first directory. -/
theorem walk_join (cwd : List (List Char)) (a b : List Char) : walk cwd (pathJoin a b) = walk (walk cwd a) b := by
  unfold pathJoin
  split_ifs with h1 h2
  · unfold walk
    rw [if_pos h1, if_pos h1]
  · rcases h2 with rfl | h2
    · rfl
    · obtain ⟨a', rfl⟩ : ∃ a', a = a' ++ ['/'] := by
        have := List.dropLast_append_getLast? '/' h2
        exact ⟨_, this.symm⟩
      rw [walk_rel h1]
      by_cases ha : a' = []
      · subst ha
        have : walk cwd ['/'] = [] := rfl
        rw [List.nil_append, this]
        rfl
      · rw [List.append_assoc, List.singleton_append, walk_slash _ ha, walk_slash _ ha]
        rfl
  · rw [not_or] at h2
    rw [walk_slash _ h2.1, walk_rel h1]

/-- **C72** Where the tools look: in the directory of the configuration file, from there along the result path, and from
there along the name of the data directory. -/
theorem C72_where (cwd : List (List Char)) (file root path : List Char) (p : PyParams) (hp : p.data_path = pyDataPath file path)
    (hr : p.data_root = root) :
    walk cwd (pyReaderRoot p) = walk (walk (walk cwd (dirname file)) path) root := by
  unfold pyReaderRoot
  rw [walk_normpath, walk_join, hp, hr]
  congr 1
  unfold pyDataPath
  split_ifs with h
  · unfold walk
    rw [if_pos h, if_pos h]
  · rw [walk_normpath, walk_join, walk_normpath]

/-- Where the simulator writes -/
theorem walk_dataRoot (cwd : List (List Char)) {path root : List Char} (hpath : path ≠ []) (hroot : root.head? ≠ some '/') :
    walk cwd (dataRoot path root) = walk (walk cwd path) root := by
  rw [walk_rel hroot]
  unfold dataRoot
  exact walk_slash cwd hpath root

/-- **C72 (partial)** If the tools are started on a configuration file in the current directory of the simulator, or the
result path is absolute, they look in the directory where the simulator writes.  The name of the data directory is
relative.  Otherwise they may look elsewhere: `C72_directory_violated`, `C72_absolute_violated`. -/
theorem C72_same_directory_partial (cwd : List (List Char)) (file : List Char) (root : Xml) (hD : Documented root)
    (c : Config) (p : PyParams) (path data : List Char) (hc : loadConfig (some root) = .ok c) (hp : pyParams file root = some p)
    (hpath : c.dump.result_path = some path) (hdata : c.dump.data_root = some data) (hne : path ≠ [])
    (hrel : data.head? ≠ some '/') (hfile : walk cwd (dirname file) = cwd ∨ path.head? = some '/') :
    walk cwd (pyReaderRoot p) = walk cwd (dataRoot path data) := by
  have h1 := (C71_agree_partial file root hD c p hc hp).data_root
  obtain ⟨path', h2, hpp⟩ := (C71_agree_partial file root hD c p hc hp).data_path
  rw [hpath, Option.some.injEq] at h2
  subst h2
  rw [hdata, Option.some.injEq] at h1
  rw [C72_where cwd file data path p hpp h1.symm, walk_dataRoot cwd hne hrel]
  rcases hfile with h | h
  · rw [h]
  · congr 1
    unfold walk
    rw [if_pos h, if_pos h]

/-- What the shipped file gives when it is kept as `file` -/
theorem shipped_paths (file : List Char) : ∃ p c, pyParams file ((shipped false).full shippedPlot) = some p ∧
    loadConfig (some ((shipped false).full shippedPlot)) = .ok c ∧ c.dump.result_path = some ['.'] ∧
      c.dump.data_root = some "pdp3_result".toList ∧ p.data_path = pyDataPath file ['.'] ∧ p.data_root = "pdp3_result".toList := by
  obtain ⟨p, h1, h2, h3, _⟩ := C71_documented_partial file (shipped false) (shipped_ok false) shippedPlot
    ['.'] "pdp3_result".toList rfl rfl
  obtain ⟨path, h4, h5⟩ := h3.data_path
  have h6 : (shipped false).meaning.dump.result_path = some ['.'] := rfl
  rw [h6, Option.some.injEq] at h4
  subst h4
  have h7 := h3.data_root
  have h8 : (shipped false).meaning.dump.data_root = some "pdp3_result".toList := rfl
  rw [h8, Option.some.injEq] at h7
  exact ⟨p, _, h1, h2, h6, h8, h5, h7.symm⟩

/-- Not vacuous: the shipped file in the current directory -/
example (cwd : List (List Char)) : ∃ p, pyParams "parameters.xml".toList ((shipped false).full shippedPlot) = some p ∧
    walk cwd (pyReaderRoot p) = "pdp3_result".toList :: cwd ∧
      walk cwd (dataRoot ['.'] "pdp3_result".toList) = "pdp3_result".toList :: cwd := by
  obtain ⟨p, c, h1, h2, h3, h4, h5, h6⟩ := shipped_paths "parameters.xml".toList
  refine ⟨p, h1, ?_, rfl⟩
  rw [C72_same_directory_partial cwd _ _ (full_documented (shipped false) shippedPlot) c p ['.'] _ h2 h1 h3 h4 (by simp) (by decide)
    (.inl rfl)]
  rfl

/-- **C72 (violated)** With the shipped file kept in the directory `a`, the tools look in `a/pdp3_result`, and the
simulator writes in `pdp3_result`. -/
theorem C72_directory_violated : ∃ file root c p path data, pyParams file root = some p ∧ loadConfig (some root) = .ok c ∧
    c.dump.result_path = some path ∧ c.dump.data_root = some data ∧
      ∀ cwd, walk cwd (pyReaderRoot p) = "pdp3_result".toList :: ['a'] :: cwd ∧
        walk cwd (dataRoot path data) = "pdp3_result".toList :: cwd := by
  obtain ⟨p, c, h1, h2, h3, h4, h5, h6⟩ := shipped_paths "a/parameters.xml".toList
  refine ⟨_, _, c, p, _, _, h1, h2, h3, h4, fun cwd => ⟨?_, rfl⟩⟩
  rw [C72_where cwd _ _ _ p h5 h6]
  rfl

/-- **C72 (violated)** With an absolute name of the data directory the tools look in that directory, and the simulator
writes in the directory of that name inside of the result path. -/
theorem C72_absolute_violated (cwd : List (List Char)) :
    walk cwd (normpath (pathJoin (pyDataPath "parameters.xml".toList ['.']) "/data".toList)) = ["data".toList] ∧
      walk cwd (dataRoot ['.'] "/data".toList) = "data".toList :: cwd := by
  refine ⟨?_, rfl⟩
  rw [walk_normpath, walk_join]
  rfl

end Verif
