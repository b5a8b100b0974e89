import Verif.IoText
import Verif.Hdf5Props

/-!
# Results kept in the old text files (C84)
-/

namespace Verif

/-! ## Specification -/

/-- the numbers of one frame, row by row, with six digits -/
noncomputable def frameNumbers (a : Grid) (r z : ℕ) : List ℝ := (tableOf a r z).flatten.map fmt6

/-- the frames of block `b` among the first `S`, for blocks of `fpf` frames -/
def blockFrames (fpf S b : ℕ) : List ℕ := (List.range S).filter fun s => s / fpf = b

/-! ## Names -/

theorem LegacyComp.name_nodigit (c : LegacyComp) : ∀ x ∈ c.name, x.isDigit = false := by
  cases c <;> decide

theorem takeWhile_name (c : LegacyComp) (b : ℕ) :
    (c.name ++ dec b).takeWhile (fun x => !x.isDigit) = c.name := by
  rw [List.takeWhile_append_of_pos fun x hx => by simp [c.name_nodigit x hx]]
  have : (dec b).takeWhile (fun x => !x.isDigit) = [] := by
    cases h : dec b with
    | nil => rfl
    | cons x l =>
      have := dec_digits b x (by simp [h])
      simp [this]
  rw [this, List.append_nil]

theorem dataName_injective {path : List Char} {c c' : LegacyComp} {b b' : ℕ}
    (h : path ++ (c.name ++ dec b) = path ++ (c'.name ++ dec b')) : c = c' ∧ b = b' := by
  have h := List.append_cancel_left h
  have e : c.name = c'.name := by rw [← takeWhile_name c b, ← takeWhile_name c' b', h]
  refine ⟨LegacyComp.name_injective e, dec_injective ?_⟩
  rw [e] at h
  exact List.append_cancel_left h

/-! ## The run -/

section Run

variable {G : Geom} {path : List Char} {fpf : ℕ}

theorem flatMap_tableOf (a : Grid) (r z : ℕ) :
    ((List.range r).flatMap fun i : ℕ => (List.range z).map fun j : ℕ => fmt6 (a i j)) = frameNumbers a r z := by
  unfold frameNumbers tableOf
  rw [List.map_flatten, List.map_map, List.flatMap_def]
  congr 1
  apply List.map_congr_left
  intro i _
  simp

theorem textOut_eq (hfpf : 0 < fpf) (hp : path.length < 80) (c : LegacyComp) (a : Grid) (step : ℕ) (hs : step < 10 ^ 10)
    (fs : TextFiles) :
    textOut G path fpf c a step fs = some (Function.update fs (path ++ (c.name ++ dec (step / fpf)))
      (some ((fs (path ++ (c.name ++ dec (step / fpf)))).getD [] ++ frameNumbers a (G.nr - 1) (G.nz - 1)))) := by
  have hd := dec_length (by norm_num : 0 < 10) (lt_of_le_of_lt (Nat.div_le_self step fpf) hs)
  have hn : c.name.length ≤ 8 := by cases c <;> decide
  unfold textOut textOutData textPath textDump
  rw [if_neg (by omega)]
  dsimp only
  rw [if_pos (by simp only [List.length_append]; omega), Option.bind_some, if_pos (by omega), flatMap_tableOf]

theorem legacyDump_text (hfpf : 0 < fpf) (hp : path.length < 80) (flags : LegacyComp → Bool) (vals : LegacyComp → Grid)
    (step : ℕ) (hs : step < 10 ^ 10) : ∀ (cs : List LegacyComp) (fs : TextFiles), cs.Nodup →
    ∃ fs', legacyDump (textOut G path fpf) flags vals step cs fs = some fs' ∧
      (∀ c ∈ cs, flags c = true → fs' (path ++ (c.name ++ dec (step / fpf))) =
        some ((fs (path ++ (c.name ++ dec (step / fpf)))).getD [] ++ frameNumbers (vals c) (G.nr - 1) (G.nz - 1))) ∧
      ∀ name, (∀ c ∈ cs, flags c = true → name ≠ path ++ (c.name ++ dec (step / fpf))) → fs' name = fs name
  | [], fs, _ => ⟨fs, rfl, by simp, fun _ _ => rfl⟩
  | c :: cs, fs, hn => by
    rw [List.nodup_cons] at hn
    unfold legacyDump
    by_cases hc : flags c = true
    · rw [if_pos hc, textOut_eq hfpf hp c _ step hs, Option.bind_some]
      obtain ⟨fs', h1, h2, h3⟩ := legacyDump_text hfpf hp flags vals step hs cs (Function.update fs
        (path ++ (c.name ++ dec (step / fpf))) (some ((fs (path ++ (c.name ++ dec (step / fpf)))).getD [] ++
          frameNumbers (vals c) (G.nr - 1) (G.nz - 1)))) hn.2
      refine ⟨fs', h1, ?_, ?_⟩
      · intro c' hc' hfl
        rcases List.mem_cons.1 hc' with rfl | hc'
        · rw [h3, Function.update_self]
          intro c'' hc'' _ e
          have := (dataName_injective e).1
          subst this
          exact hn.1 hc''
        · rw [h2 c' hc' hfl, Function.update_of_ne]
          intro e
          rw [(dataName_injective e).1] at hc'
          exact hn.1 hc'
      · intro name hname
        rw [h3 name fun c' hc' => hname c' (by simp [hc']), Function.update_of_ne (hname c (by simp) hc)]
    · rw [if_neg hc]
      obtain ⟨fs', h1, h2, h3⟩ := legacyDump_text hfpf hp flags vals step hs cs fs hn.2
      refine ⟨fs', h1, ?_, ?_⟩
      · intro c' hc' hfl
        rcases List.mem_cons.1 hc' with rfl | hc'
        · exact absurd hfl hc
        · exact h2 c' hc' hfl
      · exact fun name hname => h3 name fun c' hc' => hname c' (by simp [hc'])

/-- the files after `S` dumps -/
def TextAfter (G : Geom) (path : List Char) (fpf : ℕ) (flags : LegacyComp → Bool) (interval : ℕ)
    (vals : ℕ → LegacyComp → Grid) (fs0 : TextFiles) (S : ℕ) (fs : TextFiles) : Prop :=
  (∀ c b, flags c = true → fs (path ++ (c.name ++ dec b)) =
    if blockFrames fpf S b = [] then fs0 (path ++ (c.name ++ dec b))
    else some ((fs0 (path ++ (c.name ++ dec b))).getD [] ++
      (blockFrames fpf S b).flatMap fun s => frameNumbers (vals (s * interval) c) (G.nr - 1) (G.nz - 1))) ∧
  ∀ name, (∀ c b, flags c = true → name ≠ path ++ (c.name ++ dec b)) → fs name = fs0 name

theorem blockFrames_succ (fpf S b : ℕ) :
    blockFrames fpf (S + 1) b = blockFrames fpf S b ++ if S / fpf = b then [S] else [] := by
  unfold blockFrames
  rw [List.range_succ, List.filter_append]
  congr 1
  split_ifs with h <;> simp [h]

theorem textRun_eq (hfpf : 0 < fpf) (hp : path.length < 80) (flags : LegacyComp → Bool) {interval : ℕ}
    (hi : 0 < interval) (vals : ℕ → LegacyComp → Grid) (fs0 : TextFiles) : ∀ (n k : ℕ) (fs : TextFiles),
    n + k ≤ 2 ^ 31 → TextAfter G path fpf flags interval vals fs0 (dumpsBefore interval k) fs →
    ∃ fs', textRun G path fpf flags interval vals n k (dumpsBefore interval k) fs = some fs' ∧
      TextAfter G path fpf flags interval vals fs0 (dumpsBefore interval (k + n)) fs'
  | 0, k, fs, _, h => ⟨fs, rfl, h⟩
  | n + 1, k, fs, hn, h => by
    unfold textRun legacyRun
    have e : k + (n + 1) = k + 1 + n := by omega
    have hsucc := dumpsBefore_succ hi k
    split_ifs with hk
    · rw [if_pos hk] at hsucc
      have hd := dumpsBefore_dump hi hk
      have hki : k / interval * interval = k := Nat.div_mul_cancel (Nat.dvd_of_mod_eq_zero hk)
      obtain ⟨fs1, h1, h2, h3⟩ := legacyDump_text (G := G) (path := path) hfpf hp flags (vals k)
        (dumpsBefore interval k) (by rw [hd]; exact lt_of_le_of_lt (Nat.div_le_self _ _) (by omega)) LegacyComp.all fs
        (by decide)
      rw [h1, Option.bind_some, e]
      rw [← hd] at hsucc
      rw [← hsucc]
      refine textRun_eq hfpf hp flags hi vals fs0 n (k + 1) fs1 (by omega) ?_
      rw [hsucc]
      constructor
      · intro c b hc
        rw [blockFrames_succ]
        by_cases hb : dumpsBefore interval k / fpf = b
        · subst hb
          rw [if_pos rfl, if_neg (by simp), h2 c (by cases c <;> simp [LegacyComp.all]) hc, h.1 c _ hc]
          have hlast : ∀ l : List ℕ, (l ++ [dumpsBefore interval k]).flatMap
              (fun s => frameNumbers (vals (s * interval) c) (G.nr - 1) (G.nz - 1)) =
              l.flatMap (fun s => frameNumbers (vals (s * interval) c) (G.nr - 1) (G.nz - 1)) ++
                frameNumbers (vals k c) (G.nr - 1) (G.nz - 1) := by
            intro l
            rw [List.flatMap_append]
            simp only [List.flatMap_cons, List.flatMap_nil, List.append_nil]
            rw [hd, hki]
          rw [hlast]
          split_ifs with hbl
          · rw [hbl]; simp
          · simp only [Option.getD_some, List.append_assoc]
        · rw [if_neg hb, List.append_nil, h3 _ ?_, h.1 c b hc]
          intro c' _ _ e
          exact hb (dataName_injective e).2.symm
      · intro name hname
        rw [h3 name fun c _ hc => hname c _ hc, h.2 name hname]
    · rw [if_neg hk] at hsucc
      rw [e, ← hsucc]
      rw [← hsucc] at h
      exact textRun_eq hfpf hp flags hi vals fs0 n (k + 1) fs (by omega) h

end Run

/-- **C84** (partial): a run with the text back end comes to its end without a fault, if the result path is short enough,
and then the file of block `b` of a component that was asked for ends with the frames of that block in order, each row by
row; no other file is touched. What was in the file before stays in front of it. -/
theorem C84_files_partial (G : Geom) (path : List Char) (hp : path.length < 80) (fpf : ℕ) (hfpf : 0 < fpf)
    (flags : LegacyComp → Bool) (interval : ℕ) (hi : 0 < interval) (vals : ℕ → LegacyComp → Grid) (n : ℕ)
    (hn : n ≤ 2 ^ 31) (fs0 : TextFiles) :
    ∃ fs S, textRun G path fpf flags interval vals n 0 0 fs0 = some fs ∧ (∀ s, s < S ↔ s * interval < n) ∧
      (∀ c b, flags c = true → fs (path ++ (c.name ++ dec b)) =
        if blockFrames fpf S b = [] then fs0 (path ++ (c.name ++ dec b))
        else some ((fs0 (path ++ (c.name ++ dec b))).getD [] ++
          (blockFrames fpf S b).flatMap fun s => frameNumbers (vals (s * interval) c) (G.nr - 1) (G.nz - 1))) ∧
      ∀ name, (∀ c b, flags c = true → name ≠ path ++ (c.name ++ dec b)) → fs name = fs0 name := by
  have h0 : dumpsBefore interval 0 = 0 := by
    unfold dumpsBefore; exact Nat.div_eq_of_lt (by omega)
  obtain ⟨fs', h1, h2⟩ := textRun_eq (G := G) (path := path) hfpf hp flags hi vals fs0 n 0 fs0 (by omega)
    (by rw [h0]; exact ⟨fun c b _ => by simp [blockFrames], fun _ _ => rfl⟩)
  rw [h0, Nat.zero_add] at *
  exact ⟨fs', dumpsBefore interval n, h1, fun s => lt_dumpsBefore hi s n, h2.1, h2.2⟩

/-- **C84 is violated** by a second run in the same directory: the first frame in the first file is still that of the
first run. -/
theorem C84_rerun_violated (G : Geom) (path : List Char) (hp : path.length < 80) (fpf : ℕ) (hfpf : 0 < fpf)
    (flags : LegacyComp → Bool) (interval : ℕ) (hi : 0 < interval) (vals vals' : ℕ → LegacyComp → Grid) (n : ℕ)
    (hn : n ≤ 2 ^ 31) (h0 : 0 < n) (c : LegacyComp) (hc : flags c = true) :
    ∃ fs fs', textRun G path fpf flags interval vals n 0 0 (fun _ => none) = some fs ∧
      textRun G path fpf flags interval vals' n 0 0 fs = some fs' ∧
      ∃ rest, fs' (path ++ (c.name ++ dec 0)) = some (frameNumbers (vals 0 c) (G.nr - 1) (G.nz - 1) ++ rest) := by
  obtain ⟨fs, S, h1, h2, h3, -⟩ := C84_files_partial G path hp fpf hfpf flags interval hi vals n hn fun _ => none
  obtain ⟨fs', S', h1', h2', h3', -⟩ := C84_files_partial G path hp fpf hfpf flags interval hi vals' n hn fs
  refine ⟨fs, fs', h1, h1', ?_⟩
  have hb : ∀ T, 0 < T → ∃ l, blockFrames fpf T 0 = 0 :: l := by
    intro T hT
    obtain ⟨T, rfl⟩ : ∃ m, T = m + 1 := ⟨T - 1, by omega⟩
    unfold blockFrames
    rw [List.range_succ_eq_map]
    exact ⟨_, List.filter_cons_of_pos (by simp)⟩
  obtain ⟨l, hl⟩ := hb S ((h2 0).2 (by omega))
  obtain ⟨l', hl'⟩ := hb S' ((h2' 0).2 (by omega))
  rw [h3' c 0 hc, hl', if_neg (by simp), h3 c 0 hc, hl, if_neg (by simp)]
  refine ⟨(l.flatMap fun s => frameNumbers (vals (s * interval) c) (G.nr - 1) (G.nz - 1)) ++
    ((0 :: l').flatMap fun s => frameNumbers (vals' (s * interval) c) (G.nr - 1) (G.nz - 1)), ?_⟩
  simp

/-- **C84 is violated** for long result paths: the name of the file overflows its buffer with the first dump. -/
theorem C84_path_violated (G : Geom) (path : List Char) (hp : 96 ≤ path.length) (fpf : ℕ)
    (flags : LegacyComp → Bool) (c : LegacyComp) (hc : flags c = true) (interval : ℕ)
    (vals : ℕ → LegacyComp → Grid) (n : ℕ) (hn : 0 < n) (fs0 : TextFiles) :
    textRun G path fpf flags interval vals n 0 0 fs0 = none := by
  have key : ∀ (cs : List LegacyComp) (fs : TextFiles), (∃ c ∈ cs, flags c = true) →
      legacyDump (textOut G path fpf) flags (vals 0) 0 cs fs = none := by
    intro cs
    induction cs with
    | nil => rintro f ⟨c, hc, -⟩; simp at hc
    | cons c cs ih =>
      rintro fs ⟨c', hc', hfl⟩
      unfold legacyDump
      split_ifs with h
      · have h3 : 3 ≤ c.name.length := by cases c <;> decide
        have : textOut G path fpf c (vals 0 c) 0 fs = none := by
          unfold textOut textOutData textPath
          dsimp only
          split_ifs with h1 h2
          · rfl
          · exfalso
            have : 0 < (dec (0 / fpf)).length := List.length_pos_iff.2 (by unfold dec; exact Nat.toDigits_ne_nil)
            simp only [List.length_append] at h2
            omega
          · rfl
        rw [this]; rfl
      · apply ih
        rcases List.mem_cons.1 hc' with rfl | hc'
        · exact absurd hfl h
        · exact ⟨c', hc', hfl⟩
  obtain ⟨n, rfl⟩ : ∃ m, n = m + 1 := ⟨n - 1, by omega⟩
  unfold textRun legacyRun
  rw [if_pos (Nat.zero_mod _), key _ _ ⟨c, by cases c <;> simp [LegacyComp.all], hc⟩]
  rfl

/-- **C84 is violated** for the place of the files: if the result path has no slash at its end, they are not in that
directory but beside it. The shipped configuration has the path `.`, which gives hidden files like `.E_r0`. -/
theorem C84_place_violated (path name : List Char) (hp : path.getLast? ≠ some '/') (c : LegacyComp) (b : ℕ)
    (h : textPath path c.name b = some name) :
    ¬ ∃ file, name = path ++ '/' :: file ∨ (path.getLast? = some '/' ∧ name = path ++ file) := by
  rintro ⟨file, rfl | ⟨h', -⟩⟩
  · unfold textPath at h
    dsimp only at h
    split_ifs at h
    rw [Option.some.injEq] at h
    have h := List.append_cancel_left h
    cases c <;> simp [LegacyComp.name] at h
  · exact hp h'

/-- C84: with 2 frames per file the first two frames of a run of 25 iterations that dumps `E_r` every 10 iterations are in
file 0 and the third is in file 1. -/
example (G : Geom) (path : List Char) (hp : path.length < 80) :
    ∃ fs, textRun G path 2 (fun c => c == .er) 10 (fun k _ i j => k + i + j) 25 0 0 (fun _ => none) = some fs ∧
      fs (path ++ (LegacyComp.er.name ++ dec 0)) =
        some (frameNumbers (fun i j => 0 + i + j) (G.nr - 1) (G.nz - 1) ++
          frameNumbers (fun i j => 10 + i + j) (G.nr - 1) (G.nz - 1)) ∧
      fs (path ++ (LegacyComp.er.name ++ dec 1)) = some (frameNumbers (fun i j => 20 + i + j) (G.nr - 1) (G.nz - 1)) := by
  obtain ⟨fs, S, h1, h2, h3, -⟩ := C84_files_partial G path hp 2 (by norm_num) (fun c => c == .er) 10 (by norm_num)
    (fun k _ i j => k + i + j) 25 (by norm_num) (fun _ => none)
  have hS : S = 3 := by
    have a := (h2 2).2 (by norm_num)
    have b : ¬ 3 < S := fun h => by have := (h2 3).1 h; omega
    omega
  subst hS
  refine ⟨fs, h1, ?_, ?_⟩
  · rw [h3 .er 0 rfl, show blockFrames 2 3 0 = [0, 1] by decide]; simp
  · rw [h3 .er 1 rfl, show blockFrames 2 3 1 = [2] by decide]
    have : ((2 * 10 : ℕ) : ℝ) = 20 := by norm_num
    simp only [List.flatMap_cons, List.flatMap_nil, this]
    simp

end Verif
