import Verif.Lib
import Mathlib.Tactic.Ring
import Mathlib.Data.List.Infix

/-!
# Command line, elapsed time, directories (C43, C44, C45)
-/

namespace Verif

/-! ## C44 -/

theorem findArg_not_mem {o : String} : ∀ {l : List String}, o ∉ l → findArg o l = []
  | [], _ => rfl
  | a :: as, h => by
    rw [findArg, if_neg (fun e => h (by simp [e])), findArg_not_mem (fun e => h (by simp [e]))]

theorem findArg_first {o : String} : ∀ {pre post : List String}, o ∉ pre →
    findArg o (pre ++ o :: post) = o :: post
  | [], _, _ => by simp [findArg]
  | a :: as, post, h => by
    rw [List.cons_append, findArg, if_neg (fun e => h (by simp [e])), findArg_first (fun e => h (by simp [e]))]

theorem cmdOptionExists_iff (l : List String) (o : String) : cmdOptionExists l o = true ↔ o ∈ l := by
  by_cases h : o ∈ l
  · obtain ⟨pre, post, rfl, hp⟩ := List.eq_append_cons_of_mem h
    simp [cmdOptionExists, findArg_first hp]
  · simp [cmdOptionExists, findArg_not_mem h, h]

/-- **C44** For every argument vector: help, then version, then the first `-f`, then the default. -/
theorem C44_dispatch (argv : List String) :
    ("-h" ∈ argv → cliMain argv = .usage 1) ∧
    ("-h" ∉ argv → "--version" ∈ argv → cliMain argv = .version 0) ∧
    ("-h" ∉ argv → "--version" ∉ argv → ∀ pre path post, argv = pre ++ "-f" :: path :: post → "-f" ∉ pre →
      cliMain argv = .run path) ∧
    ("-h" ∉ argv → "--version" ∉ argv → ∀ pre, argv = pre ++ ["-f"] → "-f" ∉ pre →
      cliMain argv = .missingPath 1) ∧
    ("-h" ∉ argv → "--version" ∉ argv → "-f" ∉ argv → cliMain argv = .run "parameters.xml") := by
  have hE : ∀ o, cmdOptionExists argv o = decide (o ∈ argv) := fun o => by
    rw [Bool.eq_iff_iff]; simp [cmdOptionExists_iff]
  refine ⟨?_, ?_, ?_, ?_, ?_⟩
  · intro h; simp [cliMain, hE, h]
  · intro h1 h2; simp [cliMain, hE, h1, h2]
  · intro h1 h2 pre path post e hp
    have h3 : "-f" ∈ argv := by simp [e]
    simp only [cliMain, hE, h1, h2, h3, decide_true, decide_false, Bool.false_eq_true, if_true, if_false]
    rw [e, getCmdOption, findArg_first hp]
  · intro h1 h2 pre e hp
    have h3 : "-f" ∈ argv := by simp [e]
    simp only [cliMain, hE, h1, h2, h3, decide_true, decide_false, Bool.false_eq_true, if_true, if_false]
    rw [e, getCmdOption, findArg_first hp]
  · intro h1 h2 h3; simp [cliMain, hE, h1, h2, h3]

/-- The five cases of `C44_dispatch` are exhaustive. -/
theorem C44_cases (argv : List String) :
    "-h" ∈ argv ∨ "--version" ∈ argv ∨ (∃ pre path post, argv = pre ++ "-f" :: path :: post ∧ "-f" ∉ pre) ∨
      (∃ pre, argv = pre ++ ["-f"] ∧ "-f" ∉ pre) ∨ "-f" ∉ argv := by
  by_cases h : "-f" ∈ argv
  · obtain ⟨pre, post, e, hp⟩ := List.eq_append_cons_of_mem h
    cases post with
    | nil => exact Or.inr (Or.inr (Or.inr (Or.inl ⟨pre, e, hp⟩)))
    | cons a as => exact Or.inr (Or.inr (Or.inl ⟨pre, a, as, e, hp⟩))
  · tauto

example : cliMain ["pdp3", "-f", "a.xml", "-f", "b.xml"] = .run "a.xml" :=
  (C44_dispatch _).2.2.1 (by decide) (by decide) ["pdp3"] "a.xml" ["-f", "b.xml"] rfl (by decide)

/-! ## C43 -/

/-- seconds in a unit -/
def unitSeconds (c : Char) : ℤ :=
  if c = 'd' then 86400 else if c = 'h' then 3600 else if c = 'm' then 60 else 1

/-- **C43** (partial) The printed numbers always add up to the elapsed time. -/
theorem C43_sum (t : ℤ) : ((durationParts t).map fun p => p.1 * unitSeconds p.2).sum = t := by
  unfold durationParts
  split_ifs <;> simp only [List.map_cons, List.map_nil, List.sum_cons, List.sum_nil, unitSeconds] <;>
    simp <;> ring

/-- **C43** (partial) Every part is in its range and the leading one is not zero, except at exactly one
minute, one hour or one day. Missing: those three durations (`C43_boundary_violated`) and the memory
that holds the text (`C43_buffer_violated`). -/
theorem C43_range_partial (t : ℤ) (h0 : 0 ≤ t) (h1 : t ≠ 60) (h2 : t ≠ 3600) (h3 : t ≠ 86400) :
    (∀ p ∈ durationParts t, 0 ≤ p.1 ∧ (p.2 = 's' → p.1 < 60) ∧ (p.2 = 'm' → p.1 < 60) ∧ (p.2 = 'h' → p.1 < 24)) ∧
      (60 ≤ t → ∀ p, (durationParts t).head? = some p → 0 < p.1) := by
  unfold durationParts
  split_ifs
  all_goals
    refine ⟨?_, ?_⟩
    · intro p hp
      simp only [List.mem_cons, List.not_mem_nil, or_false] at hp
      rcases hp with rfl | rfl | rfl | rfl <;> refine ⟨?_, ?_, ?_, ?_⟩ <;> simp <;> omega
    · intro hge p hp
      simp only [List.head?_cons, Option.some.injEq] at hp
      subst hp
      simp only
      omega

/-- **C43** is violated at exactly one minute, one hour and one day: the seconds are printed undecomposed. -/
theorem C43_boundary_violated : durationParts 60 = [(60, 's')] ∧ durationParts 3600 = [(3600, 's')] ∧
    durationParts 86400 = [(86400, 's')] := by decide

/-- **C43** is violated for every duration: the text with its terminating zero does not fit into the buffer. -/
theorem C43_buffer_violated (t : ℤ) : durationBuffer < (durationText t).length + 1 := by
  have h : ∃ p, p ∈ durationParts t := by
    unfold durationParts; split_ifs <;> exact ⟨_, List.mem_cons_self⟩
  obtain ⟨p, hp⟩ := h
  have hne : durationText t ≠ [] := by
    unfold durationText
    obtain ⟨x, xs, hx⟩ : ∃ x xs, durationParts t = x :: xs := by
      cases hd : durationParts t with
      | nil => rw [hd] at hp; cases hp
      | cons x xs => exact ⟨x, xs, rfl⟩
    rw [hx]
    cases xs with
    | nil => simp [List.intercalate]
    | cons y ys => simp [List.intercalate]
  have := List.length_pos_iff.2 hne
  unfold durationBuffer
  omega

/-! ## C45 -/

/-- Every existing name is in an existing directory and the root is a directory. -/
def FS.Wf (fs : FS) : Prop := fs [] = some .dir ∧ ∀ q, fs q ≠ none → q ≠ [] → fs q.dropLast = some .dir

theorem mkdir_ok {cwd fails fs p fs'} (h : mkdir cwd fails fs p = (fs', none)) :
    fs' = Function.update fs (resolve cwd p) (some .dir) ∧ fs (resolve cwd p) = none ∧ p ≠ [] ∧
      wayError fs [] (resolve cwd p).dropLast = none ∧ resolve cwd p ≠ [] := by
  unfold mkdir at h
  dsimp only at h
  by_cases h1 : p = []
  · simp [h1] at h
  · rw [if_neg h1] at h
    by_cases h2 : resolve cwd p = []
    · simp [h2] at h
    · rw [if_neg h2] at h
      rcases hw : wayError fs [] (resolve cwd p).dropLast with _ | e
      · rw [hw] at h
        dsimp only at h
        split_ifs at h with h3 h4
        · simp at h
        · simp at h
        · exact ⟨(Prod.ext_iff.1 h).1.symm, by simpa using h3, h1, rfl, h2⟩
      · rw [hw] at h; cases h

theorem mkdir_err {cwd fails fs p fs' e} (h : mkdir cwd fails fs p = (fs', some e)) : fs' = fs := by
  unfold mkdir at h
  dsimp only at h
  by_cases h1 : p = []
  · rw [if_pos h1] at h; cases h; rfl
  · rw [if_neg h1] at h
    by_cases h2 : resolve cwd p = []
    · rw [if_pos h2] at h; cases h; rfl
    · rw [if_neg h2] at h
      rcases hw : wayError fs [] (resolve cwd p).dropLast with _ | e
      · rw [hw] at h
        dsimp only at h
        split_ifs at h <;> cases h <;> rfl
      · rw [hw] at h; cases h; rfl

theorem beforeLastSlash_some {p r : List Char} (h : beforeLastSlash p = some r) :
    ∃ y, p = r ++ '/' :: y := by
  unfold beforeLastSlash at h
  split at h
  · cases h
  · rename_i c r' hr
    cases h
    have hc : c = '/' := by
      have := List.head?_dropWhile_not (p := fun c => decide (c ≠ '/')) (l := p.reverse)
      rw [hr] at this; simpa using this
    subst hc
    refine ⟨(p.reverse.takeWhile (fun c => decide (c ≠ '/'))).reverse, ?_⟩
    have := List.takeWhile_append_dropWhile (p := fun c => decide (c ≠ '/')) (l := p.reverse)
    rw [hr] at this
    have := congrArg List.reverse this
    simpa using this.symm

theorem splitSlash_append (x y : List Char) : splitSlash (x ++ '/' :: y) = splitSlash x ++ splitSlash y := by
  induction x with
  | nil => simp [splitSlash]
  | cons c x ih =>
    rw [List.cons_append, splitSlash, splitSlash, ih]
    split_ifs with h
    · rfl
    · cases hs : splitSlash x with
      | nil =>
        exfalso
        cases x with
        | nil => simp [splitSlash] at hs
        | cons d x => rw [splitSlash] at hs; split_ifs at hs; split at hs <;> simp at hs
      | cons w ws => rfl

theorem comps_append (x y : List Char) : comps (x ++ '/' :: y) = comps x ++ comps y := by
  unfold comps; rw [splitSlash_append, List.filter_append]

theorem resolve_parent {cwd : Name} {p r : List Char} (h : beforeLastSlash p = some r) (hr : r ≠ []) :
    ∃ y, p = r ++ '/' :: y ∧ resolve cwd p = resolve cwd r ++ comps y := by
  obtain ⟨y, rfl⟩ := beforeLastSlash_some h
  refine ⟨y, rfl, ?_⟩
  unfold resolve
  have : (r ++ '/' :: y).head? = r.head? := by cases r with
    | nil => exact absurd rfl hr
    | cons => rfl
  rw [this, comps_append]
  split_ifs <;> simp

/-- **C45** If the result is true the directory exists afterwards. -/
theorem C45_success (cwd : Name) (fails : Name → Bool) (fs : FS) (p : List Char)
    (h : (makeDirectory cwd fails fs p).2 = true) :
    (makeDirectory cwd fails fs p).1 (resolve cwd p) = some .dir := by
  rw [makeDirectory] at h ⊢
  rcases hm : mkdir cwd fails fs p with ⟨fs1, e⟩
  rw [hm] at h
  rcases e with _ | e
  · obtain ⟨rfl, _⟩ := mkdir_ok hm
    simp
  · cases e with
    | enoent =>
      simp only at h ⊢
      split at h
      · cases h
      · rename_i parent hb
        rcases hd : makeDirectory cwd fails fs1 parent with ⟨fs2, b⟩
        rw [hd] at h
        cases b with
        | false => cases h
        | true =>
          simp only at h ⊢
          rcases hm2 : mkdir cwd fails fs2 p with ⟨fs3, e3⟩
          rw [hm2] at h
          cases e3 with
          | none => obtain ⟨rfl, _⟩ := mkdir_ok hm2; simp
          | some _ => cases h
    | eexist =>
      simp only [directoryExists, decide_eq_true_eq] at h ⊢
      exact h
    | other => cases h

/-- **C45** Nothing that exists is removed or changed, and everything new is a directory on the way to the
requested one. -/
theorem C45_only_adds (cwd : Name) (fails : Name → Bool) (fs : FS) (p : List Char) (q : Name) :
    (fs q ≠ none → (makeDirectory cwd fails fs p).1 q = fs q) ∧
      (fs q = none → (makeDirectory cwd fails fs p).1 q ≠ none →
        (makeDirectory cwd fails fs p).1 q = some .dir ∧ q <+: resolve cwd p) := by
  induction hn : p.length using Nat.strong_induction_on generalizing fs p with
  | _ n ih =>
    subst hn
    have step : ∀ (f f' : FS) (h : mkdir cwd fails f p = (f', none)),
        (f q ≠ none → f' q = f q) ∧ (f q = none → f' q ≠ none → f' q = some .dir ∧ q = resolve cwd p) := by
      intro f f' h
      obtain ⟨rfl, hnone, _⟩ := mkdir_ok h
      by_cases hq : q = resolve cwd p
      · subst hq
        exact ⟨fun hne => absurd hnone hne, fun _ _ => ⟨by simp, rfl⟩⟩
      · rw [Function.update_of_ne hq]
        exact ⟨fun _ => rfl, fun h1 h2 => absurd h1 h2⟩
    rw [makeDirectory]
    rcases hm : mkdir cwd fails fs p with ⟨fs1, e⟩
    rcases e with _ | e
    · obtain ⟨s1, s2⟩ := step _ _ hm
      exact ⟨s1, fun a b => ⟨(s2 a b).1, (s2 a b).2 ▸ List.prefix_rfl⟩⟩
    · have hfs := mkdir_err hm
      subst hfs
      cases e with
      | enoent =>
        simp only
        split
        · exact ⟨fun _ => rfl, fun h1 h2 => absurd h1 h2⟩
        · rename_i parent hb
          have hi := ih parent.length (beforeLastSlash_lt hb) fs1 parent rfl
          have hpre : ∀ {a}, a <+: resolve cwd parent → parent ≠ [] → a <+: resolve cwd p := by
            intro a ha hne
            obtain ⟨y, _, e⟩ := resolve_parent (cwd := cwd) hb hne
            rw [e]; exact ha.trans (List.prefix_append _ _)
          have hne : ∀ f, makeDirectory cwd fails fs1 parent = f → f.1 q ≠ fs1 q → parent ≠ [] := by
            intro f hf hq hp
            subst hp
            rw [makeDirectory] at hf
            simp [mkdir, beforeLastSlash] at hf
            rw [← hf] at hq
            exact hq rfl
          rcases hd : makeDirectory cwd fails fs1 parent with ⟨fs2, b⟩
          have hne' := hne _ hd
          rw [hd] at hi
          obtain ⟨i1, i2⟩ := hi
          have i2' : fs1 q = none → fs2 q ≠ none → fs2 q = some .dir ∧ q <+: resolve cwd p := by
            intro h1 h2
            refine ⟨(i2 h1 h2).1, hpre (i2 h1 h2).2 (hne' ?_)⟩
            rw [h1]; exact h2
          cases b with
          | false => exact ⟨i1, i2'⟩
          | true =>
            simp only
            rcases hm2 : mkdir cwd fails fs2 p with ⟨fs3, e3⟩
            cases e3 with
            | none =>
              obtain ⟨s1, s2⟩ := step _ _ hm2
              simp only
              constructor
              · intro h1
                have := i1 h1
                simp only at this
                rw [s1 (by rw [this]; exact h1), this]
              · intro h1 h2
                by_cases h3 : fs2 q = none
                · exact ⟨(s2 h3 h2).1, (s2 h3 h2).2 ▸ List.prefix_rfl⟩
                · rw [s1 h3]; exact i2' h1 h3
            | some _ =>
              have := mkdir_err hm2
              subst this
              exact ⟨i1, i2'⟩
      | eexist => exact ⟨fun _ => rfl, fun h1 h2 => absurd h1 h2⟩
      | other => exact ⟨fun _ => rfl, fun h1 h2 => absurd h1 h2⟩

/-- **C45** is violated in its converse form by a path with a trailing slash whose parent is missing: failure is
reported whether or not the directory was created. -/
theorem C45_trailing_slash_violated (cwd : Name) (fails : Name → Bool) (fs : FS) (p : List Char) (hp : p ≠ [])
    (hm : (mkdir cwd fails fs p).2 = some .enoent) :
    (makeDirectory cwd fails fs (p ++ ['/'])).2 = false := by
  have hres : resolve cwd (p ++ ['/']) = resolve cwd p := by
    unfold resolve
    have : (p ++ ['/']).head? = p.head? := by cases p with
      | nil => exact absurd rfl hp
      | cons => rfl
    rw [this, comps_append]
    simp [comps, splitSlash]
  have hmk : ∀ f, mkdir cwd fails f (p ++ ['/']) = mkdir cwd fails f p := by
    intro f; unfold mkdir; rw [hres]; simp [hp]
  have hb : beforeLastSlash (p ++ ['/']) = some p := by simp [beforeLastSlash]
  rcases hm0 : mkdir cwd fails fs p with ⟨fs1, e⟩
  rw [hm0] at hm
  simp only at hm
  subst hm
  have := mkdir_err hm0
  subst this
  rw [makeDirectory, hmk, hm0]
  simp only
  split
  · rfl
  · rename_i parent hb'
    rw [hb] at hb'
    cases hb'
    rcases hd : makeDirectory cwd fails fs1 p with ⟨fs2, b⟩
    cases b with
    | false => rfl
    | true =>
      have hdir := C45_success cwd fails fs1 p (by rw [hd])
      rw [hd] at hdir
      simp only at hdir ⊢
      rcases hm2 : mkdir cwd fails fs2 (p ++ ['/']) with ⟨fs3, e3⟩
      cases e3 with
      | none =>
        rw [hmk] at hm2
        obtain ⟨_, hnone, _⟩ := mkdir_ok hm2
        rw [hdir] at hnone; cases hnone
      | some _ => rfl

/-! ### Clean paths succeed -/

/-- a component that can stand in a path -/
def GoodComp (w : List Char) : Prop := w ≠ [] ∧ w ≠ ['.'] ∧ '/' ∉ w

/-- `Clean abs p ws`: `p` is the text of the components `ws` with single slashes between them, with a leading
slash iff `abs`, and without a trailing one. -/
inductive Clean (abs : Bool) : List Char → Name → Prop
  | rel {w} (ha : abs = false) (h : GoodComp w) : Clean abs w [w]
  | abs {w} (ha : abs = true) (h : GoodComp w) : Clean abs ('/' :: w) [w]
  | snoc {p ws w} (hp : Clean abs p ws) (h : GoodComp w) : Clean abs (p ++ '/' :: w) (ws ++ [w])

theorem splitSlash_no_slash {w : List Char} (h : '/' ∉ w) : splitSlash w = [w] := by
  induction w with
  | nil => rfl
  | cons c w ih =>
    have hc : c ≠ '/' := fun e => h (by simp [e])
    rw [splitSlash, if_neg hc, ih (fun e => h (by simp [e]))]

theorem comps_good {w : List Char} (h : GoodComp w) : comps w = [w] := by
  unfold comps; rw [splitSlash_no_slash h.2.2]; simp [h.1, h.2.1]

theorem beforeLastSlash_eq {p w : List Char} (h : '/' ∉ w) : beforeLastSlash (p ++ '/' :: w) = some p := by
  unfold beforeLastSlash
  have e : (p ++ '/' :: w).reverse = w.reverse ++ '/' :: p.reverse := by simp
  rw [e, List.dropWhile_append_of_pos (by intro c hc; simp at hc ⊢; rintro rfl; exact h hc)]
  simp

theorem Clean.facts {ab : Bool} {p : List Char} {ws : Name} (h : Clean ab p ws) :
    p ≠ [] ∧ ws ≠ [] ∧ comps p = ws ∧ (p.head? = some '/' ↔ ab = true) := by
  induction h with
  | rel ha hg =>
    refine ⟨hg.1, by simp, comps_good hg, ?_⟩
    rename_i w
    cases w with
    | nil => exact absurd rfl hg.1
    | cons c w =>
      simp only [List.head?_cons, Option.some.injEq, ha, Bool.false_eq_true, iff_false]
      rintro rfl; exact hg.2.2 (by simp)
  | abs ha hg =>
    rename_i w
    refine ⟨by simp, by simp, ?_, by simp [ha]⟩
    have := comps_append [] w
    rw [List.nil_append] at this
    rw [this, comps_good hg]; simp [comps, splitSlash]
  | snoc hp hg ih =>
    obtain ⟨h1, h2, h3, h4⟩ := ih
    refine ⟨by simp, by simp, by rw [comps_append, h3, comps_good hg], ?_⟩
    rw [← h4]
    rename_i p _ _
    cases p with
    | nil => exact absurd rfl h1
    | cons => rfl

theorem Clean.resolve {ab : Bool} {p : List Char} {ws : Name} (h : Clean ab p ws) (cwd : Name) :
    Verif.resolve cwd p = (if ab then [] else cwd) ++ ws := by
  obtain ⟨_, _, h3, h4⟩ := h.facts
  unfold Verif.resolve
  cases ab with
  | true => rw [if_pos (h4.2 rfl), h3]; simp
  | false => rw [if_neg (fun e => by simpa using h4.1 e), h3]; simp

theorem FS.Wf.prefix {fs : FS} (h : fs.Wf) (a : Name) : ∀ (b : Name), b ≠ [] → fs (a ++ b) ≠ none →
    fs a = some .dir := by
  intro b
  induction b using List.reverseRecOn with
  | nil => intro hb; exact absurd rfl hb
  | append_singleton b w ih =>
    intro _ hne
    have := h.2 _ hne (by simp)
    rw [← List.append_assoc, List.dropLast_concat] at this
    by_cases hb : b = []
    · simpa [hb] using this
    · exact ih hb (by rw [this]; simp)

theorem wayError_none {fs : FS} (h : fs.Wf) : ∀ (ws pre : Name), fs (pre ++ ws) = some .dir →
    wayError fs pre ws = none
  | [], pre, hd => by rw [List.append_nil] at hd; simp [wayError, hd]
  | w :: ws, pre, hd => by
    have h1 := h.prefix pre (w :: ws) (by simp) (by rw [hd]; simp)
    rw [wayError, h1]
    exact wayError_none h ws (pre ++ [w]) (by simpa using hd)

theorem wayError_enoent {fs : FS} : ∀ (ws pre : Name), fs (pre ++ ws) = none →
    (∀ a, a <+: pre ++ ws → fs a ≠ some .file) → wayError fs pre ws = some .enoent
  | [], pre, hd, _ => by rw [List.append_nil] at hd; simp [wayError, hd]
  | w :: ws, pre, hd, hf => by
    rw [wayError]
    have := hf pre (List.prefix_append _ _)
    rcases hk : fs pre with _ | k
    · rfl
    · cases k with
      | file => exact absurd hk this
      | dir => exact wayError_enoent ws (pre ++ [w]) (by simpa using hd) (by simpa using hf)

theorem wf_update {fs : FS} (h : fs.Wf) {q : Name} (hq : fs q = none) (hp : fs q.dropLast = some .dir)
    (hne : q ≠ []) : FS.Wf (Function.update fs q (some .dir)) := by
  have hdl : q.dropLast ≠ q := fun e => by
    have := congrArg List.length e
    simp at this
    have := List.length_pos_iff.2 hne
    omega
  refine ⟨?_, ?_⟩
  · rw [Function.update_of_ne (Ne.symm hne)]; exact h.1
  · intro r hr hrne
    by_cases hrq : r = q
    · subst hrq; rw [Function.update_of_ne hdl]; exact hp
    · rw [Function.update_of_ne hrq] at hr
      have := h.2 r hr hrne
      by_cases hd : r.dropLast = q
      · rw [hd, hq] at this; cases this
      · rw [Function.update_of_ne hd]; exact this

/-- **C45** Creation succeeds for every clean path when the starting directory exists, no file is in the way and
`mkdir` does not fail for other reasons. -/
theorem C45_complete (cwd : Name) (ab : Bool) (p : List Char) (ws : Name) (hc : Clean ab p ws) :
    ∀ (fs : FS), fs.Wf → fs cwd = some .dir → (∀ a, a <+: resolve cwd p → fs a ≠ some .file) →
      (makeDirectory cwd (fun _ => false) fs p).2 = true ∧
      (makeDirectory cwd (fun _ => false) fs p).1.Wf := by
  have base : ∀ (fs : FS) (p : List Char) (ws : Name), Clean ab p ws → fs.Wf →
      (∀ a, a <+: resolve cwd p → fs a ≠ some .file) → fs (resolve cwd p).dropLast = some .dir →
      (makeDirectory cwd (fun _ => false) fs p).2 = true ∧
      (makeDirectory cwd (fun _ => false) fs p).1.Wf := by
    intro fs p ws hc hwf hfile hpar
    have hne := hc.facts.1
    have hr : resolve cwd p ≠ [] := by rw [hc.resolve]; simp [hc.facts.2.1]
    have hway := wayError_none hwf (resolve cwd p).dropLast [] (by simpa using hpar)
    rw [makeDirectory]
    rcases hq : fs (resolve cwd p) with _ | k
    · have : mkdir cwd (fun _ => false) fs p = (Function.update fs (resolve cwd p) (some .dir), none) := by
        unfold mkdir; simp [hne, hr, hway, hq]
      rw [this]
      exact ⟨rfl, wf_update hwf hq hpar hr⟩
    · have : mkdir cwd (fun _ => false) fs p = (fs, some .eexist) := by
        unfold mkdir; simp [hne, hr, hway, hq]
      rw [this]
      cases k with
      | file => exact absurd hq (hfile _ List.prefix_rfl)
      | dir => exact ⟨by simp [directoryExists, hq], hwf⟩
  induction hc with
  | rel ha hg =>
    intro fs hwf hcwd hfile
    have hc := Clean.rel ha hg
    refine base fs _ _ hc hwf hfile ?_
    rw [hc.resolve, ha]; simpa using hcwd
  | abs ha hg =>
    intro fs hwf hcwd hfile
    have hc := Clean.abs ha hg
    refine base fs _ _ hc hwf hfile ?_
    rw [hc.resolve, ha]; simpa using hwf.1
  | snoc hp hg ih =>
    rename_i p ws w
    intro fs hwf hcwd hfile
    have hc := Clean.snoc hp hg
    have hres : resolve cwd (p ++ '/' :: w) = resolve cwd p ++ [w] := by
      rw [hc.resolve, hp.resolve, List.append_assoc]
    have hdl : (resolve cwd (p ++ '/' :: w)).dropLast = resolve cwd p := by rw [hres]; simp
    rcases hpar : fs (resolve cwd p) with _ | k
    · -- the parent is missing
      have hnone : fs (resolve cwd (p ++ '/' :: w)) = none := by
        by_contra hne
        have := hwf.2 _ hne (by rw [hres]; simp)
        rw [hdl, hpar] at this; cases this
      have hfile' : ∀ a, a <+: resolve cwd p → fs a ≠ some .file :=
        fun a ha => hfile a (ha.trans (by rw [hres]; exact List.prefix_append _ _))
      have hway := wayError_enoent (fs := fs) (resolve cwd p) [] (by simpa using hpar) (by simpa using hfile')
      have hmk : mkdir cwd (fun _ => false) fs (p ++ '/' :: w) = (fs, some .enoent) := by
        unfold mkdir; dsimp only; rw [hdl, hway, hres]; simp
      obtain ⟨i1, i2⟩ := ih fs hwf hcwd hfile'
      have hsucc := C45_success cwd (fun _ => false) fs p i1
      have hadd := C45_only_adds cwd (fun _ => false) fs p (resolve cwd (p ++ '/' :: w))
      rcases hd : makeDirectory cwd (fun _ => false) fs p with ⟨fs2, b⟩
      rw [hd] at i1 i2 hsucc hadd
      simp only at i1 i2 hsucc hadd
      subst i1
      have hnone2 : fs2 (resolve cwd (p ++ '/' :: w)) = none := by
        by_contra hne
        have := (hadd.2 hnone hne).2
        have := this.length_le
        rw [hres] at this; simp at this
      have hway2 := wayError_none i2 (resolve cwd p) [] (by simpa using hsucc)
      have hmk2 : mkdir cwd (fun _ => false) fs2 (p ++ '/' :: w)
          = (Function.update fs2 (resolve cwd (p ++ '/' :: w)) (some .dir), none) := by
        unfold mkdir; dsimp only; rw [hdl, hway2]
        simp only [hnone2]
        rw [if_neg (by simp), if_neg (by rw [hres]; simp)]
        simp
      rw [makeDirectory, hmk]
      simp only
      split
      · rename_i hb; rw [beforeLastSlash_eq hg.2.2] at hb; cases hb
      · rename_i parent hb
        rw [beforeLastSlash_eq hg.2.2] at hb
        cases hb
        rw [hd]
        simp only
        rw [hmk2]
        exact ⟨rfl, wf_update i2 hnone2 (by rw [hdl]; exact hsucc) (by rw [hres]; simp)⟩
    · cases k with
      | file => exact absurd hpar (hfile _ (by rw [hres]; exact List.prefix_append _ _))
      | dir => exact base fs _ _ hc hwf hfile (by rw [hdl]; exact hpar)

/-- The file system with only the root directory. -/
def emptyFS : FS := fun q => if q = [] then some .dir else none

theorem emptyFS_wf : emptyFS.Wf := by
  refine ⟨by simp [emptyFS], ?_⟩
  intro q h1 h2; simp [emptyFS, h2] at h1

/-- `a/b/c` is created from nothing; `a/b/` is created and reported as failed. -/
example : (makeDirectory [] (fun _ => false) emptyFS ['a', '/', 'b', '/', 'c']).2 = true ∧
    (makeDirectory [] (fun _ => false) emptyFS ['a', '/', 'b', '/']).2 = false := by
  constructor
  · refine (C45_complete [] false _ [['a'], ['b'], ['c']] ?_ emptyFS emptyFS_wf (by simp [emptyFS]) ?_).1
    · have h : ∀ c : Char, c ≠ '.' → c ≠ '/' → GoodComp [c] := by
        intro c h1 h2; exact ⟨by simp, by simp [h1], by simp [h2.symm]⟩
      exact Clean.snoc (Clean.snoc (Clean.rel rfl (h 'a' (by decide) (by decide))) (h 'b' (by decide) (by decide)))
        (h 'c' (by decide) (by decide))
    · intro a _; unfold emptyFS; split_ifs <;> simp
  · exact C45_trailing_slash_violated [] (fun _ => false) emptyFS ['a', '/', 'b'] (by simp) (by decide)

end Verif
